import Verif.Lemmas.ItemClear
import Verif.Lemmas.ItemsAll
/-! # C42: item events describe the items of the graph -/

namespace Verif
open EG
variable {E : Type} [EdgeProp E]

/-- Missing compared to C42: frames created from a property that holds items already, see `C42_prefilled_frame_fails`, and removal
through an iterator (see C41).  After every history, with self edges and subscribed views too, an observer that applied the
events to empty lists has exactly the items of each frame in the order of addition, and every query answers accordingly. -/
theorem C42_events_describe_items_partial (heap : ItemId → ItemObj) (cs : List (Cmd E)) (hcs : ∀ c ∈ cs, c.byPointer) {s : EG E}
    (hs : run cs (init heap) = some s) :
    let M := Shelf.empty.replay (s.gs.trace.map Prod.fst)
    (∀ f, GS.containsFrame f s.gs = true → AnswersAs (fun i => (heap i).type) s f (M f)) ∧
    (∀ f, GS.containsFrame f s.gs = false → M f = []) := by
  intro M
  obtain ⟨hg, l, h1, h2⟩ := run_follows hcs (EG.Good.init heap) hs
  have hl : l = s.gs.trace := by rw [h1]; simp [init, GS.init]
  subst hl
  have hM := h2 Shelf.empty (EG.Stocked.init _ heap)
  refine ⟨fun f hf => ?_, fun f hf => hM.absent f (by simpa [GS.containsFrame] using hf)⟩
  exact HSim.answers (S := ⟨M, fun i => (s.heap i).frame⟩) ⟨hg, hM, fun _ => rfl⟩ hf

/-- an item is added twice and removed once; the frame is removed in the end -/
example : (run [.graph (.addFrame "a"), .addItemToFrame "a" 0, .addItemToFrame "a" 1, .addItemToFrame "a" 0, .removeItem 0]
      (init (E := Int) (fun _ => ⟨7, ""⟩))).map (fun s => ((visitItems "a" s).val?, Shelf.empty.replay (s.gs.trace.map Prod.fst) "a")) =
    some (some [1, 0], [1, 0]) := by decide +kernel

/-- In histories without self edges the same events let the strict observer of C08 rebuild frames and connections: item events do
not disturb it. -/
theorem C42_graph_events_of_item_histories (heap : ItemId → ItemObj) (cs : List (Cmd E)) (hcs : ∀ c ∈ cs, c.noSelf) {s : EG E}
    (hs : run cs (init heap) = some s) :
    ∃ m, Mirror.empty.replay (s.gs.trace.map Prod.fst) = some m ∧
      (∀ f, f ∈ m.frames ↔ GS.containsFrame f s.gs = true) ∧
      (∀ a b, (a, b) ∈ m.conns ↔ GS.containsEdge a b s.gs = .ok true s.gs) := by
  obtain ⟨l, h1, h2⟩ := Chain.mirror (run_chain (fun c hc => (hcs c hc).within) hs) WF.empty Paired.empty
  have hl : l = s.gs.trace := by rw [h1]; simp [init, GS.init]
  subst hl
  obtain ⟨m, h3, h4⟩ := h2 Mirror.empty MirrorOf.empty
  exact ⟨m, h3, h4.frames, fun a b => by rw [h4.conns, containsEdge_iff]⟩

example : (run [.graph (.addEdge "a" "b" (1 : Int)), .addItemToFrame "b" 0, .graph (.removeEdge "a" "b"), .graph (.removeFrame "b")]
      (init (fun _ => ⟨7, ""⟩))).bind (fun s => (Mirror.empty.replay (s.gs.trace.map Prod.fst)).map fun m => (m.frames, m.conns)) =
    some ({"a"}, ∅) := by decide +kernel

/-- items 0 to 4 have type 7, the others type 8 -/
def C42_heap (i : ItemId) : ItemObj := ⟨if i < 5 then 7 else 8, ""⟩

example : (run [.graph (.addFrame "a"), .addItemToFrame "a" 0, .addItemToFrame "a" 5, .addItemToFrame "a" 1, .removeItem 0,
      .graph (.addEdge "a" "b" (1 : Int)), .addItemToFrame "b" 2, .clearFrame "b", .graph (.removeFrame "c")]
      (init C42_heap)).map (fun s => (s.gs.trace.map Prod.fst, Shelf.empty.replay (s.gs.trace.map Prod.fst) "a")) =
    some ([.frameAdded "a", .itemAdded "a" 0, .itemAdded "a" 5, .itemAdded "a" 1, .itemRemoved "a" 0, .frameAdded "b",
      .edgeAdded "a" "b" 0, .itemAdded "b" 2, .itemRemoved "b" 2], [5, 1]) := by decide +kernel

/-- A frame created from a property that holds items: the items are never announced. -/
theorem C42_prefilled_frame_fails : ∃ s : EG Int,
    run [.graph (.emplaceFrame "a" ⟨"", [(7, [0])]⟩)] (init C42_heap) = some s ∧ getItems "a" 7 s = .ok [0] s ∧
    s.gs.trace.map Prod.fst = [.frameAdded "a"] := ⟨_, rfl, rfl, rfl⟩

/-- no frame is made from a property that contains items -/
def C42_noPrefilled (cs : List (Cmd E)) : Prop := ∀ f p, .graph (.emplaceFrame f p) ∈ cs → p.items = []

/-- Missing compared to C42: the other direction, see `C42_gentle_history_partial`.  After every history of any calls, removal through iterators
included, in which no frame is made from a property that contains items, an observer never misses an item: every item of a frame is in
the observer's list, as often as in the frame. -/
theorem C42_never_misses_partial (heap : ItemId → ItemObj) (cs : List (Cmd E)) (hcs : C42_noPrefilled cs) {s : EG E}
    (hs : run cs (init heap) = some s) {f : FrameId} {l : List ItemId} (hl : visitItems f s = .ok l s) (i : ItemId) :
    l.count i ≤ (Shelf.empty.replay (s.gs.trace.map Prod.fst) f).count i := by
  have key : ∀ (cs : List (Cmd E)), C42_noPrefilled cs → ∀ (s s' : EG E) (S : ItemSpec), HSim (fun i => (heap i).type) s S →
      S.items.Le (Shelf.empty.replay (s.gs.trace.map Prod.fst)) → run cs s = some s' →
      ∃ S' : ItemSpec, HSim (fun i => (heap i).type) s' S' ∧ S'.items.Le (Shelf.empty.replay (s'.gs.trace.map Prod.fst)) := by
    intro cs
    induction cs with
    | nil =>
      intro _ s s' S h hle hr
      simp only [run, Option.some.injEq] at hr
      subst hr
      exact ⟨S, h, hle⟩
    | cons c cs ih =>
      intro hcs s s' S h hle hr
      obtain ⟨s1, h1, h2⟩ := run_cons hr
      have hcs' : C42_noPrefilled cs := fun f p e => hcs f p (.tail _ e)
      have hby : c.byPointer → ∃ S' : ItemSpec, HSim (fun i => (heap i).type) s' S' ∧ S'.items.Le (Shelf.empty.replay (s'.gs.trace.map Prod.fst)) := by
        intro hb
        obtain ⟨hg, l, a1, a2⟩ := exec_follows hb h.good h1
        refine ih hcs' s1 s' ⟨S.items.replay (l.map Prod.fst), fun i => (s1.heap i).frame⟩ ⟨hg, a2 _ h.stocked, fun _ => rfl⟩ ?_ h2
        rw [a1, List.map_append, Shelf.replay_append]
        exact hle.replay _
      cases c with
      | removeItemAt f it =>
        rcases h.removeItemAt (f := f) (it := it) rfl with ⟨x, hr⟩ | ⟨m, hr⟩ | ⟨hff, i, rest, s2, hr, hi, -, -, -, b3, b4⟩
        · simp only [exec, hr, GS.discard, Res.st?, Option.some.injEq] at h1
          subst h1
          exact ih hcs' s s' S h hle h2
        · simp only [exec, hr, GS.discard, Res.st?, reduceCtorEq] at h1
        · simp only [exec, hr, GS.discard, Res.st?, Option.some.injEq] at h1
          subst h1
          refine ih hcs' s2 s' _ b3 ?_ h2
          rw [b4, Shelf.replay_append]
          intro x j
          show ((S.items.put f _) x).count j ≤ (Shelf.apply _ (.itemRemoved f i) x).count j
          simp only [Shelf.apply, Shelf.put]
          have hle' := hle x j
          by_cases hx : x = f
          swap
          · rw [if_neg hx, if_neg hx]; exact hle'
          subst hx
          rw [if_pos rfl, if_pos rfl, List.count_erase]
          have him := List.mem_filter.1 (List.mem_of_getElem? hi)
          by_cases hlast : it.pos + 1 = ((S.items x).filter (fun j => decide ((heap j).type = it.type))).length
          · rw [if_pos hlast]
            by_cases hj : (heap j).type = it.type
            · rw [List.count_eq_zero.2 (by simp [hj])]; exact Nat.zero_le _
            · have : j ≠ i := by rintro rfl; exact hj (by simpa using him.2)
              rw [if_neg (by simpa using (Ne.symm this)), List.count_filter (by simpa using hj)]
              exact hle'
          · rw [if_neg hlast]
            have hp := (removeNth_perm _ _ _ _ hi).count_eq j
            rw [List.count_cons] at hp
            omega
      | graph c =>
        cases c with
        | emplaceFrame f p => exact hby (hcs f p (.head _))
        | _ => exact hby trivial
      | _ => exact hby trivial
  obtain ⟨S, h1, h2⟩ := key cs hcs _ s _ (HSim.init heap) (fun _ _ => Nat.le_refl _) hs
  have hf : GS.containsFrame f s.gs = true := by
    cases hv : GS.containsFrame f s.gs with
    | true => rfl
    | false =>
      have : s.gs.g.vertexOf f = none := by simpa [GS.containsFrame] using hv
      have := (AnswersUnknown.of this).visit
      rw [hl] at this; cases this
  obtain ⟨l', b1, b2, -⟩ := (h1.answers hf).visit
  rw [hl] at b1
  cases b1
  rw [b2.count_eq]
  exact h2 f i

/-- after the removal through an iterator of the last item the observer has one item too many -/
example : (run [.graph (.addFrame "a"), .addItemToFrame "a" 0, .addItemToFrame "a" 1, .addItemToFrame "a" 5, .removeItemAt "a" ⟨"a", 7, 1⟩]
      (init (E := Int) C42_heap)).map (fun s => ((visitItems "a" s).val?, Shelf.empty.replay (s.gs.trace.map Prod.fst) "a")) =
    some (some [5], [0, 5]) := by decide +kernel

/-- Whenever an item is removed through an iterator: it is not the last of several items of its type in the frame, and it is listed there once. -/
def C42_gentle : List (Cmd E) → EG E → Prop
  | [], _ => True
  | c :: cs, s => (∀ f it, c = .removeItemAt f it → ∀ l i, getItems f it.type s = .ok l s → l[it.pos]? = some i →
        l.count i = 1 ∧ (it.pos + 1 = l.length → l = [i])) ∧
      ∀ s', (exec c s).st? = some s' → C42_gentle cs s'

/-- Missing compared to C42: frames made from a property that contains items, removal through an iterator of the last of several items of
a type (`C42_last_removed_fails`), and of an item that is listed several times, where the observer takes out the first one.  After all
other histories an observer has exactly the items of each frame in the order of addition, and every query answers accordingly. -/
theorem C42_gentle_history_partial (heap : ItemId → ItemObj) (cs : List (Cmd E)) (hcs : C42_noPrefilled cs) (hgen : C42_gentle cs (init heap))
    {s : EG E} (hs : run cs (init heap) = some s) :
    let M := Shelf.empty.replay (s.gs.trace.map Prod.fst)
    (∀ f, GS.containsFrame f s.gs = true → AnswersAs (fun i => (heap i).type) s f (M f)) ∧
    (∀ f, GS.containsFrame f s.gs = false → M f = []) := by
  intro M
  have key : ∀ (cs : List (Cmd E)), C42_noPrefilled cs → ∀ (s s' : EG E), C42_gentle cs s → EG.Good (fun i => (heap i).type) s →
      Stocked (fun i => (heap i).type) s.gs.g (Shelf.empty.replay (s.gs.trace.map Prod.fst)) → run cs s = some s' →
      EG.Good (fun i => (heap i).type) s' ∧ Stocked (fun i => (heap i).type) s'.gs.g (Shelf.empty.replay (s'.gs.trace.map Prod.fst)) := by
    intro cs
    induction cs with
    | nil =>
      intro _ s s' _ h hle hr
      simp only [run, Option.some.injEq] at hr
      subst hr
      exact ⟨h, hle⟩
    | cons c cs ih =>
      intro hcs s s' hgen h hle hr
      obtain ⟨s1, h1, h2⟩ := run_cons hr
      have hcs' : C42_noPrefilled cs := fun f p e => hcs f p (.tail _ e)
      have hgen' := hgen.2 s1 h1
      have hby : c.byPointer → EG.Good (fun i => (heap i).type) s' ∧
          Stocked (fun i => (heap i).type) s'.gs.g (Shelf.empty.replay (s'.gs.trace.map Prod.fst)) := by
        intro hb
        obtain ⟨hg, l, a1, a2⟩ := exec_follows hb h h1
        refine ih hcs' s1 s' hgen' hg ?_ h2
        rw [a1, List.map_append, Shelf.replay_append]
        exact a2 _ hle
      cases c with
      | removeItemAt f it =>
        have H : HSim (fun i => (heap i).type) s ⟨Shelf.empty.replay (s.gs.trace.map Prod.fst), fun i => (s.heap i).frame⟩ := ⟨h, hle, fun _ => rfl⟩
        rcases H.removeItemAt (f := f) (it := it) rfl with ⟨x, hr⟩ | ⟨m, hr⟩ | ⟨hff, i, rest, s2, hr, hi, -, -, hget, b3, b4⟩
        · simp only [exec, hr, GS.discard, Res.st?, Option.some.injEq] at h1
          subst h1
          exact ih hcs' s s' hgen' h hle h2
        · simp only [exec, hr, GS.discard, Res.st?, reduceCtorEq] at h1
        · simp only [exec, hr, GS.discard, Res.st?, Option.some.injEq] at h1
          subst h1
          refine ih hcs' s2 s' hgen' b3.good ?_ h2
          obtain ⟨g1, g2⟩ := hgen.1 f it rfl _ i hget hi
          have hst := b3.stocked
          have him := List.mem_filter.1 (List.mem_of_getElem? hi)
          rw [List.count_filter (by simpa using him.2)] at g1
          rw [b4, Shelf.replay_append]
          refine Eq.mp (congrArg (Stocked _ _) ?_) hst
          show Shelf.put _ f _ = Shelf.put _ f _
          congr 1
          by_cases hlast : it.pos + 1 = ((Shelf.empty.replay (s.gs.trace.map Prod.fst) f).filter (fun j => decide ((heap j).type = it.type))).length
          · rw [if_pos hlast, ← filter_single_erase _ _ _ (g2 hlast)]
            apply List.filter_congr
            intro j _
            simp
          · rw [if_neg hlast]
            exact removeNth_erase _ _ _ _ hi g1
      | graph c =>
        cases c with
        | emplaceFrame f p => exact hby (hcs f p (.head _))
        | _ => exact hby trivial
      | _ => exact hby trivial
  obtain ⟨hg, hM⟩ := key cs hcs _ s hgen (EG.Good.init heap) (EG.Stocked.init _ heap) hs
  refine ⟨fun f hf => ?_, fun f hf => hM.absent f (by simpa [GS.containsFrame] using hf)⟩
  exact HSim.answers (S := ⟨M, fun i => (s.heap i).frame⟩) ⟨hg, hM, fun _ => rfl⟩ hf

def C42_iterators : List (Cmd Int) :=
  [.graph (.addFrame "a"), .addItemToFrame "a" 0, .addItemToFrame "a" 5, .addItemToFrame "a" 1, .removeItemAt "a" ⟨"a", 7, 0⟩,
   .removeItemAt "a" ⟨"a", 8, 0⟩]

example : (run C42_iterators (init C42_heap)).map (fun s => (Shelf.empty.replay (s.gs.trace.map Prod.fst) "a", (visitItems "a" s).val?)) =
    some ([1], some [1]) := by decide +kernel

/-- The last of several items is removed through an iterator: the observer still has the other item, the frame has none. -/
theorem C42_last_removed_fails : ∃ s : EG Int,
    run [.graph (.addFrame "a"), .addItemToFrame "a" 0, .addItemToFrame "a" 1, .removeItemAt "a" ⟨"a", 7, 1⟩] (init C42_heap) = some s ∧
    visitItems "a" s = .ok [] s ∧ Shelf.empty.replay (s.gs.trace.map Prod.fst) "a" = [0] := ⟨_, rfl, rfl, rfl⟩

/-- An item is listed twice and the second one is removed through an iterator: the observer takes out the first one. -/
theorem C42_twice_listed_fails : ∃ s : EG Int,
    run [.graph (.addFrame "a"), .addItemToFrame "a" 0, .addItemToFrame "a" 1, .addItemToFrame "a" 0, .addItemToFrame "a" 2,
      .removeItemAt "a" ⟨"a", 7, 2⟩] (init C42_heap) = some s ∧
    visitItems "a" s = .ok [0, 1, 2] s ∧ Shelf.empty.replay (s.gs.trace.map Prod.fst) "a" = [1, 0, 2] := ⟨_, rfl, rfl, rfl⟩

/-- this history is gentle and makes no frame from a property -/
example : C42_noPrefilled C42_iterators ∧ C42_gentle C42_iterators (init C42_heap) := by
  refine ⟨by intro f p h; simp [C42_iterators] at h, by simp, fun s1 h1 => ⟨by simp, fun s2 h2 => ⟨by simp, fun s3 h3 => ⟨by simp, fun s4 h4 => ?_⟩⟩⟩⟩
  cases h1; cases h2; cases h3; cases h4
  refine ⟨fun f it e l i hl hi => ?_, fun s5 h5 => ⟨fun f it e l i hl hi => ?_, fun _ _ => trivial⟩⟩
  · cases e; cases hl; cases hi
    exact ⟨by decide, by decide⟩
  · cases h5; cases e; cases hl; cases hi
    exact ⟨by decide, by decide⟩

end Verif
