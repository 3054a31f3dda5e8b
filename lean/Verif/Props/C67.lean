import Verif.Lemmas.Views
import Verif.Spec.Demo
set_option linter.unusedSectionVars false
/-! # C67: a moved or copied tree view keeps working -/

namespace Verif
open GS TreeView
variable {F E : Type} [FrameProp F] [EdgeProp E]

/-- The full statement: after moving the subscribed view `p` to the new object `q`, any calls make `q` call what `p` would have called,
and `p` calls nothing; a copy is not subscribed, and can be subscribed. -/
def C67_statement : Prop :=
  (∀ (s t : VS DemoFrame Int) (p q : Nat) (cs : List (Cmd DemoFrame Int)), SubsInv s.gs → p ∈ s.gs.subs → q ∉ s.gs.subs → s.heard p = [] →
    (∀ c ∈ cs, c.notOn p ∧ c.notOn q) → VS.run cs s = some t →
    ∃ t', VS.run cs (VS.move p q s) = some t' ∧ t'.heard q = t.heard p ∧ t'.heard p = []) ∧
  (∀ (s : VS DemoFrame Int) (p q : Nat), SubsInv s.gs → q ∉ s.gs.subs → p ≠ q →
    q ∉ (VS.copy p q s).gs.subs ∧ ∃ t, subscribeTreeView q (VS.copy p q s).gs = .ok () t)

/-- frames a, b; view 0 from a, subscribed; callbacks 1, 2, 3 for added, removed and cross edges; view 1 is another view that is not
subscribed -/
def viewDemo : Option (VS DemoFrame Int) :=
  (GS.run [.addEdge "a" "b" 1, .getTree "a" true 0, .getTree "b" false 1] init).map fun g =>
    ⟨g, fun p => if p = 0 then ⟨[1], [2], [3]⟩ else VSlots.none, fun _ => []⟩

/-- The callbacks of `edgeRemoved` are not called any more after the view was moved. -/
theorem C67_edgeRemoved_fails :
    ((viewDemo.bind fun s => VS.run [.addEdge "b" "c" 5, .removeEdge "b" "c"] s).map fun t => t.heard 0) =
      some [(1, .edgeAdded 1 2), (2, .edgeRemoved 1 2)] ∧
    ((viewDemo.bind fun s => VS.run [.addEdge "b" "c" 5, .removeEdge "b" "c"] (VS.move 0 9 s)).map fun t => (t.heard 9, t.heard 0)) =
      some ([(1, .edgeAdded 1 2)], []) := by decide +kernel

/-- A copy of a subscribed view cannot be subscribed: the assert of `setPublisher` fails. -/
theorem C67_copy_subscribe_fails :
    (viewDemo.map fun s => match subscribeTreeView 9 (VS.copy 0 9 s).gs with | .ub _ => true | _ => false) = some true := by decide +kernel

/-- If a view that is not subscribed is assigned to a subscribed one, the latter forgets that it is subscribed: after its destruction the
graph still has a pointer to it. -/
theorem C67_assign_dangling_fails : (viewDemo.map fun s => (VS.destroy 0 (VS.assign 1 0 s)).gs.subs) = some [0] := by decide +kernel

/-- A copy of a subscribed view gets subscribed when it is moved. -/
theorem C67_copy_moved_fails : (viewDemo.map fun s => ((VS.copy 0 8 s).gs.subs, (VS.move 8 9 (VS.copy 0 8 s)).gs.subs)) =
    some ([0], [0, 9]) := by decide +kernel

/-- The full statement is false. -/
theorem C67_fails : ¬ C67_statement := by
  intro h
  cases hv : (GS.run [.addEdge "a" "b" 1, .getTree "a" true 0, .getTree "b" false 1] (init : GS DemoFrame Int)) with
  | none => exact absurd hv (by
      intro hv
      have : (viewDemo.map fun s => ((VS.copy 0 8 s).gs.subs, (VS.move 8 9 (VS.copy 0 8 s)).gs.subs)) = some ([0], [0, 9]) := C67_copy_moved_fails
      rw [viewDemo, hv] at this
      exact absurd this (by simp))
  | some g =>
    have hi : SubsInv g := run_subsInv init_subsInv hv
    have hd : viewDemo = some ⟨g, fun p => if p = 0 then ⟨[1], [2], [3]⟩ else VSlots.none, fun _ => []⟩ := by rw [viewDemo, hv]; rfl
    have hsub : g.subs = [0] := by
      have := congrArg (Option.map Prod.fst) C67_copy_moved_fails
      rw [hd] at this
      simpa [VS.copy, VS.assign] using this
    have h2 := (h.2 ⟨g, fun p => if p = 0 then ⟨[1], [2], [3]⟩ else VSlots.none, fun _ => []⟩ 0 9 hi (by simp [hsub]) (by simp)).2
    obtain ⟨t, ht⟩ := h2
    have h3 := C67_copy_subscribe_fails
    rw [hd] at h3
    simp only [Option.map_some, ht] at h3
    exact absurd h3 (by simp)

/-- not an emission of `edgeRemoved` -/
def ViewSignal.notRemoved : ViewSignal → Bool
  | .edgeRemoved _ _ => false
  | _ => true

theorem callsOf_filter (l : VSlots) (sigs : List ViewSignal) :
    VSlots.callsOf ⟨l.added, [], l.cross⟩ sigs = (l.callsOf sigs).filter (fun x => x.2.notRemoved) := by
  induction sigs with
  | nil => rfl
  | cons x sigs ih =>
    simp only [VSlots.callsOf, List.flatMap_cons, List.filter_append] at ih ⊢
    rw [ih]
    congr 1
    cases x <;> simp only [VSlots.of, List.filter_map, List.map_nil]
    · rw [List.filter_eq_self.2 (by intros; rfl)]
    · rw [List.filter_eq_nil_iff.2 (by intro a _; simp [ViewSignal.notRemoved])]; rfl
    · rw [List.filter_eq_self.2 (by intros; rfl)]

/-- what the run after the move (`s'`) has to do with the run without it (`s`); `a`: the calls of `p` before -/
structure VMoved (p q : Nat) (a : List (Nat × ViewSignal)) (s s' : VS F E) : Prop where
  gs : Moved p q s.gs s'.gs
  slotsQ : s'.slots q = ⟨(s.slots p).added, [], (s.slots p).cross⟩
  slots : ∀ r, r ≠ p → r ≠ q → s'.slots r = s.slots r ∧ s'.heard r = s.heard r
  heard : ∃ n, s.heard p = a ++ n ∧ s'.heard q = n.filter (fun x => x.2.notRemoved)
  old : s'.heard p = a
  gone : p ∉ s'.gs.subs

theorem vexec_moved {p q : Nat} {a : List (Nat × ViewSignal)} {s s' : VS F E} (h : VMoved p q a s s') {c : Cmd F E} (hp : c.notOn p)
    (hq : c.notOn q) : Res.Rel (VMoved p q a) (VS.exec c s) (VS.exec c s') := by
  have h1 := exec_moved h.gs hp hq
  have h2 : ∀ t', (GS.exec c s'.gs).st? = some t' → t'.views p = s'.gs.views p ∧ p ∉ t'.subs := fun t' ht => exec_other_view hp h.gone ht
  have key : ∀ t t', (GS.exec c s'.gs).st? = some t' → Moved p q t t' → VMoved p q a (s.emitted t) (s'.emitted t') := by
    intro t t' ht hm
    obtain ⟨n, hn1, hn2⟩ := h.heard
    refine ⟨hm, h.slotsQ, ?_, ?_, ?_, (h2 t' ht).2⟩
    · intro r hr1 hr2
      refine ⟨(h.slots r hr1 hr2).1, ?_⟩
      simp only [VS.emitted]
      rw [(h.slots r hr1 hr2).1, (h.slots r hr1 hr2).2, hm.views.2 r hr1 hr2, h.gs.views.2 r hr1 hr2]
    · refine ⟨n ++ (s.slots p).callsOf ((t.views p).signals.drop (s.gs.views p).signals.length), ?_, ?_⟩
      · simp only [VS.emitted, hn1, List.append_assoc]
      · simp only [VS.emitted, hn2, h.slotsQ, List.filter_append, callsOf_filter, hm.views.1, h.gs.views.1]
    · simp only [VS.emitted, h.old, (h2 t' ht).1]
      simp [VSlots.callsOf]
  unfold VS.exec
  revert h1 key
  cases GS.exec c s.gs <;> cases GS.exec c s'.gs <;> intro h1 key <;> first | exact h1.elim | skip
  · exact ⟨rfl, key _ _ rfl h1.2⟩
  · exact ⟨h1.1, key _ _ rfl h1.2⟩
  · exact h1

theorem vrun_moved {p q : Nat} {a : List (Nat × ViewSignal)} (cs : List (Cmd F E)) (hcs : ∀ c ∈ cs, c.notOn p ∧ c.notOn q) :
    ∀ {s s' t : VS F E}, VMoved p q a s s' → VS.run cs s = some t → ∃ t', VS.run cs s' = some t' ∧ VMoved p q a t t' := by
  induction cs with
  | nil =>
    intro s s' t h ht
    simp only [VS.run, Option.some.injEq] at ht
    subst ht
    exact ⟨s', rfl, h⟩
  | cons c cs ih =>
    intro s s' t h ht
    have h1 := vexec_moved h (hcs c (List.mem_cons_self ..)).1 (hcs c (List.mem_cons_self ..)).2
    unfold VS.run at ht ⊢
    revert h1 ht
    cases VS.exec c s <;> cases VS.exec c s' <;> intro h1 ht <;> first | exact h1.elim | skip
    · exact ih (fun c hc => hcs c (List.mem_cons_of_mem _ hc)) h1.2 ht
    · exact ih (fun c hc => hcs c (List.mem_cons_of_mem _ hc)) h1.2 ht
    · exact absurd ht (by simp)

theorem move_moved {s : VS F E} {l : List Nat} {p q : Nat} (hi : SubsInv s.gs) (hl : s.gs.subs = l ++ [p]) (hq : q ∉ s.gs.subs) :
    VMoved p q (s.heard p) s (VS.move p q s) := by
  have hpq : p ≠ q := by rintro rfl; exact hq (by simp [hl])
  have hmem : p ∈ s.gs.subs := by simp [hl]
  have hpub : (s.gs.views p).publisher = true := (hi.2 p).1 hmem
  have hnd := hi.1
  rw [hl, List.nodup_append] at hnd
  have hpl : p ∉ l := fun h => hnd.2.2 p h p (by simp) rfl
  have hsub : (VS.move p q s).gs.subs = l ++ [q] := by
    simp only [VS.move, hpub, if_true, hl, List.filter_append]
    congr 1
    simp only [ne_eq, List.filter_cons, decide_not, decide_true, Bool.not_true, Bool.false_eq_true, if_false, List.filter_nil, List.append_nil]
    rw [List.filter_eq_self]
    intro x hx
    simp only [Bool.not_eq_eq_eq_not, Bool.not_true, decide_eq_false_iff_not]
    rintro rfl
    exact hpl hx
  refine ⟨⟨hpq, rfl, rfl, hmem, hq, ?_, ?_⟩, ?_, ?_, ⟨[], by simp, ?_⟩, ?_, ?_⟩
  · rw [hsub, hl, List.map_append]
    congr 1
    · have : l.map (sw p q) = l.map id := List.map_congr_left (fun x hx => by simp [sw, show x ≠ p by rintro rfl; exact hpl hx])
      rw [this, List.map_id]
    · simp [sw]
  · refine ⟨by simp [VS.move], fun r h1 h2 => by simp [VS.move, h1, h2]⟩
  · simp [VS.move]
  · intro r h1 h2; simp [VS.move, h1, h2]
  · simp [VS.move]
  · simp [VS.move, hpq]
  · rw [hsub]
    simp only [List.mem_append, List.mem_singleton, not_or]
    exact ⟨hpl, hpq⟩

/-- Missing compared to C67: the callbacks of `edgeRemoved`, and views that were not subscribed last (the order of the updates changes
then, which matters if one of them throws).  After moving the view that was subscribed last, any calls that do not name the two objects
have the same outcome as without the move; the new object has the content that the old one would have, it calls the callbacks of
`edgeAdded` and `crossEdgeAdded` as the old one would have done; the old one calls nothing; the other views are not affected. -/
theorem C67_move_partial (s t : VS F E) (l : List Nat) (p q : Nat) (hi : SubsInv s.gs) (hl : s.gs.subs = l ++ [p]) (hq : q ∉ s.gs.subs)
    (cs : List (Cmd F E)) (hcs : ∀ c ∈ cs, c.notOn p ∧ c.notOn q) (ht : VS.run cs s = some t) :
    ∃ t', VS.run cs (VS.move p q s) = some t' ∧ t'.gs.g = t.gs.g ∧ t'.gs.trace = t.gs.trace ∧ t'.gs.views q = t.gs.views p ∧
      (∀ r, r ≠ p → r ≠ q → t'.gs.views r = t.gs.views r ∧ t'.heard r = t.heard r) ∧
      (∃ n, t.heard p = s.heard p ++ n ∧ t'.heard q = n.filter (fun x => x.2.notRemoved)) ∧ t'.heard p = s.heard p := by
  obtain ⟨t', h1, h2⟩ := vrun_moved cs hcs (move_moved hi hl hq) ht
  exact ⟨t', h1, h2.gs.g, h2.gs.trace, h2.gs.views.1, fun r hr1 hr2 => ⟨h2.gs.views.2 r hr1 hr2, (h2.slots r hr1 hr2).2⟩, h2.heard, h2.old⟩

/-- the moved view gets the edge to c and the cross edge a-c -/
example : ((viewDemo.bind fun s => VS.run [.addEdge "b" "c" 5, .addEdge "c" "a" 6] (VS.move 0 9 s)).map fun t =>
    (t.heard 9, t.heard 0, (t.gs.views 9).tree.map Prod.fst, t.gs.subs)) =
    some ([(1, .edgeAdded 1 2), (3, .crossEdgeAdded ⟨2, 0, 4⟩)], [], [0, 1, 2], [9]) := by decide +kernel

/-- Missing compared to C67: signals and removals (see above).  Any subscribed view can be moved: after any calls that add frames and edges
the new object is a correct tree of its root, and so are the other subscribed views. -/
theorem C67_moved_follows_partial (cs0 : List (Cmd F E)) (hns : ∀ c ∈ cs0, c.noSelf) (g : GS F E) (h : GS.run cs0 init = some g)
    (hok : ∀ p ∈ g.subs, ∃ root, IsTreeView g.g root (g.views p)) (p q : Nat) (hp : p ∈ g.subs) (hq : q ∉ g.subs)
    (slots : Nat → VSlots) (heard : Nat → List (Nat × ViewSignal)) (cs : List (Cmd F E)) (hcs : ∀ c ∈ cs, c.grows) :
    ∃ s', GS.run cs (VS.move p q ⟨g, slots, heard⟩).gs = some s' ∧
      (∀ root, IsTreeView g.g root (g.views p) → IsTreeView s'.g root (s'.views q)) ∧
      (∀ r ∈ g.subs, r ≠ p → ∀ root, IsTreeView g.g root (g.views r) → IsTreeView s'.g root (s'.views r)) ∧ q ∈ s'.subs ∧ p ∉ s'.subs := by
  have hw : WF g.g := run_wf WF.empty h
  have hpr : Paired g.g := run_paired WF.empty Paired.empty h hns
  have hinv := run_subsInv init_subsInv h
  have hpub : (g.views p).publisher = true := (hinv.2 p).1 hp
  have hpq : p ≠ q := by rintro rfl; exact hq hp
  have hsub : (VS.move p q ⟨g, slots, heard⟩).gs.subs = g.subs.filter (· ≠ p) ++ [q] := by simp [VS.move, hpub]
  have hmem : ∀ r, r ∈ (VS.move p q ⟨g, slots, heard⟩).gs.subs ↔ (r ∈ g.subs ∧ r ≠ p) ∨ r = q := by intro r; rw [hsub]; simp
  have hview : ∀ r, r ∈ g.subs → r ≠ p → (VS.move p q ⟨g, slots, heard⟩).gs.views r = g.views r := by
    intro r hr hrp
    have : r ≠ q := by rintro rfl; exact hq hr
    simp [VS.move, this, hrp]
  have hviewq : (VS.move p q ⟨g, slots, heard⟩).gs.views q = g.views p := by simp [VS.move]
  obtain ⟨s', h1, h2⟩ := run_follows (cs := cs) (s := (VS.move p q ⟨g, slots, heard⟩).gs) hcs hw hpr ⟨by
      rw [hsub]
      refine List.nodup_append.2 ⟨hinv.1.filter _, by simp, ?_⟩
      intro a ha b hb
      rw [List.mem_singleton.1 hb]
      rintro rfl
      exact hq (List.mem_filter.1 ha).1, by
      intro r hr
      rcases (hmem r).1 hr with ⟨hr, hrp⟩ | rfl
      · obtain ⟨root, ho⟩ := hok r hr
        exact ⟨root, by rw [hview r hr hrp]; exact ho⟩
      · obtain ⟨root, ho⟩ := hok p hp
        exact ⟨root, by rw [hviewq]; exact ho⟩⟩
  refine ⟨s', h1, ?_, ?_, ?_, ?_⟩
  · intro root hr
    exact h2.2 q ((hmem q).2 (.inr rfl)) root (by rw [hviewq]; exact hr)
  · intro r hr hrp root ho
    exact h2.2 r ((hmem r).2 (.inl ⟨hr, hrp⟩)) root (by rw [hview r hr hrp]; exact ho)
  · rw [h2.1]; exact (hmem q).2 (.inr rfl)
  · rw [h2.1, hmem]
    rintro (⟨_, hh⟩ | hh)
    · exact hh rfl
    · exact hpq hh

/-- Missing compared to C67: subscribing a copy of a subscribed view.  A copy has the content of the original and no callbacks; it is not
subscribed, so no later call changes it, while the original and all others stay subscribed as they were; destroying it changes no
subscription.  It can be subscribed if the original is not subscribed, and otherwise after `unsubscribe()`. -/
theorem C67_copy_partial (s : VS F E) (p q : Nat) (hi : SubsInv s.gs) (hq : q ∉ s.gs.subs) (hpq : p ≠ q) :
    ((VS.copy p q s).gs.views q).tree = (s.gs.views p).tree ∧ ((VS.copy p q s).gs.views q).crossEdges = (s.gs.views p).crossEdges ∧
    ((VS.copy p q s).gs.views q).root = (s.gs.views p).root ∧ (VS.copy p q s).slots q = VSlots.none ∧
    (VS.copy p q s).gs.subs = s.gs.subs ∧ (∀ r, r ≠ q → (VS.copy p q s).gs.views r = s.gs.views r) ∧
    (∀ cs t, (∀ c ∈ cs, c.notOn q) → GS.run cs (VS.copy p q s).gs = some t → t.views q = (VS.copy p q s).gs.views q ∧ q ∉ t.subs) ∧
    (VS.destroy q (VS.copy p q s)).gs.subs = s.gs.subs ∧
    (p ∉ s.gs.subs → ∃ t, subscribeTreeView q (VS.copy p q s).gs = .ok () t ∧ t.subs = s.gs.subs ++ [q]) ∧
    (∃ t, subscribeTreeView q (unsubscribeView q (VS.copy p q s).gs) = .ok () t ∧ t.subs = s.gs.subs ++ [q]) := by
  have hfil : s.gs.subs.filter (fun x => decide (x ≠ q)) = s.gs.subs := by
    rw [List.filter_eq_self]
    intro x hx
    simp only [decide_eq_true_eq]
    rintro rfl
    exact hq hx
  have hun : (unsubscribeView q (VS.copy p q s).gs).subs = s.gs.subs := by
    unfold unsubscribeView
    split
    · exact hfil
    · rfl
  refine ⟨by simp [VS.copy, VS.assign, hpq], by simp [VS.copy, VS.assign, hpq], by simp [VS.copy, VS.assign, hpq], by simp [VS.copy, VS.assign],
    rfl, fun r hr => by simp [VS.copy, VS.assign, hr], ?_, hun, ?_, ?_⟩
  · intro cs t hcs ht
    exact run_other_view hcs hq ht
  · intro hp
    have hpub : (s.gs.views p).publisher = false := by
      cases hb : (s.gs.views p).publisher
      · rfl
      · exact absurd ((hi.2 p).2 hb) hp
    refine ⟨_, by unfold subscribeTreeView; rw [if_neg (by simp [VS.copy, VS.assign, hpq, hpub])], rfl⟩
  · have hpub : ((unsubscribeView q (VS.copy p q s).gs).views q).publisher = false := by
      unfold unsubscribeView
      split
      · simp [setView]
      · rename_i hb; simpa using hb
    refine ⟨_, by unfold subscribeTreeView; rw [if_neg (by simp [hpub])], ?_⟩
    simp [hun]

/-- a copy of the subscribed view does not get the new edge -/
example : ((viewDemo.bind fun s => GS.run [.addEdge "b" "c" 5] (VS.copy 0 9 s).gs).map fun t =>
    ((t.views 0).tree.map Prod.fst, (t.views 9).tree.map Prod.fst, t.subs)) = some ([0, 1, 2], [0, 1], [0]) := by decide +kernel

/-- Destroying a view unsubscribes it: the graph keeps no pointer to it; the others stay subscribed.  (After all calls of C23-C27, and
moves; not after the assignments above.) -/
theorem C67_destroy (s : VS F E) (q : Nat) (hi : SubsInv s.gs) : ∀ r, r ∈ (VS.destroy q s).gs.subs ↔ r ∈ s.gs.subs ∧ r ≠ q := by
  intro r
  simp only [VS.destroy, unsubscribeView]
  split
  · simp
  · rename_i hb
    have : q ∉ s.gs.subs := fun hh => hb ((hi.2 q).1 hh)
    constructor
    · intro hr; exact ⟨hr, by rintro rfl; exact this hr⟩
    · exact fun hr => hr.1

example : (viewDemo.map fun s => (VS.destroy 9 (VS.move 0 9 s)).gs.subs) = some [] := by decide +kernel

/-- Moving keeps the invariant that exactly the subscribed views have a publisher, so everything else proved about views goes on to hold. -/
theorem C67_move_consistent (s : VS F E) (p q : Nat) (hi : SubsInv s.gs) (hq : q ∉ s.gs.subs) (hpq : p ≠ q) : SubsInv (VS.move p q s).gs := by
  by_cases hp : (s.gs.views p).publisher = true
  · have hsub : (VS.move p q s).gs.subs = s.gs.subs.filter (· ≠ p) ++ [q] := by simp [VS.move, hp]
    refine ⟨?_, ?_⟩
    · rw [hsub]
      refine List.nodup_append.2 ⟨hi.1.filter _, by simp, ?_⟩
      intro a ha b hb
      rw [List.mem_singleton.1 hb]
      rintro rfl
      exact hq (List.mem_filter.1 ha).1
    · intro r
      rw [hsub]
      by_cases h1 : r = q
      · subst h1; simp [VS.move, hp]
      · by_cases h2 : r = p
        · subst h2; simp [VS.move, h1]
        · simp only [VS.move, h1, h2, if_false, List.mem_append, List.mem_singleton, or_false, List.mem_filter]
          simpa [h2] using hi.2 r
  · have hp' : (s.gs.views p).publisher = false := by simpa using hp
    have hsub : (VS.move p q s).gs.subs = s.gs.subs := by simp [VS.move, hp']
    refine ⟨hsub ▸ hi.1, ?_⟩
    intro r
    rw [hsub]
    by_cases h1 : r = q
    · subst h1; simp [VS.move, hp', hq]
    · by_cases h2 : r = p
      · subst h2
        have : r ∉ s.gs.subs := fun hh => hp ((hi.2 r).1 hh)
        simp [VS.move, h1, this]
      · simp only [VS.move, h1, h2, if_false]
        exact hi.2 r

example : (viewDemo.map fun s => ((VS.move 0 9 s).gs.subs, ((VS.move 0 9 s).gs.views 9).publisher, ((VS.move 0 9 s).gs.views 0).publisher)) =
    some ([9], true, false) := by decide +kernel

/-- a copy has the cross edges and no callbacks -/
example : ((viewDemo.bind fun s => VS.run [.addEdge "b" "c" 5, .addEdge "c" "a" 6] s).map fun t =>
    (((VS.copy 0 9 t).gs.views 9).crossEdges.map (fun c => (c.origin, c.target)), (VS.copy 0 9 t).slots 9, (VS.copy 0 9 t).heard 9)) =
    some ([(2, 0)], ⟨[], [], []⟩, []) := by decide +kernel

end Verif
