import Verif.Lemmas.ViewUnsub
import Verif.Spec.Demo
set_option linter.unusedSectionVars false
set_option synthInstance.maxSize 1024
/-!
# C97: a slot of a tree view may unsubscribe views

Full statement: if slots that are connected to the signals of tree views unsubscribe views (their own or others), then a call of the
graph that returns without them also returns with them, with the same graph, events and trees; only the views that were
unsubscribed are not subscribed any more.

It fails: `add_edge`, `remove_edge` and `disconnectFrame` emit the signals while they run over the vector of subscribed views.  It is
exactly the end of an existing subscription that makes them undefined (`C97_exact_partial`).  During `getTree` slots may unsubscribe
views, but a slot that unsubscribes the view that is being built does not prevent it from being subscribed (`C97_getTree_partial`).
-/

namespace Verif
open GS
variable {F E : Type} [FrameProp F] [EdgeProp E]

/-- While `s` became `t`, a subscribed view emitted a signal and its slots unsubscribed a view that was subscribed.  `t.views p` has
emitted the signals number 0 to `(t.views p).signals.length - 1`; the `k`-th was emitted after `s`. -/
def C97_unsubscribed (wi : Wishes) (s t : GS F E) : Prop :=
  ∃ p ∈ s.subs, ∃ k, (s.views p).signals.length < k ∧ k ≤ (t.views p).signals.length ∧
    ∃ q ∈ wi p ((t.views p).signals.take k), q ∈ s.subs

/-- the same tree -/
def C97_sameTree (w w' : TreeView) : Prop :=
  w'.tree = w.tree ∧ w'.crossEdges = w.crossEdges ∧ w'.root = w.root ∧ w'.signals = w.signals

/-- the full statement -/
def C97_statement (F E : Type) [FrameProp F] [EdgeProp E] : Prop :=
  ∀ (wi : Wishes) (calls : List (Cmd F E)) (s : GS F E), runU wi calls init = some s → ∀ (c : Cmd F E) (t : GS F E),
    exec c s = .ok () t → ∃ s', execU wi c s = .ok () s' ∧ s'.g = t.g ∧ s'.trace = t.trace ∧
      ∀ q, C97_sameTree (t.views q) (s'.views q) ∧ (q ∈ s'.subs → q ∈ t.subs)

theorem unsubscribed_iff {wi : Wishes} {s t : GS F E} : C97_unsubscribed wi s t ↔ Asked wi s t := by
  unfold C97_unsubscribed Asked AskedIn
  constructor
  · rintro ⟨p, hp, k, k1, k2, q, hq, hs⟩; exact ⟨p, hp, q, mem_told.2 ⟨k, k1, k2, hq⟩, hs⟩
  · rintro ⟨p, hp, q, hq, hs⟩
    obtain ⟨k, k1, k2, k3⟩ := mem_told.1 hq
    exact ⟨p, hp, k, k1, k2, q, k3, hs⟩

/-- Every call but `getTree`, in every state that is reached with these slots, that returns without the slots: it has undefined
behaviour if during the call a slot unsubscribes a view that is subscribed, and does the same as without the slots if not. -/
theorem C97_exact_partial (wi : Wishes) (calls : List (Cmd F E)) (s : GS F E) (hr : runU wi calls init = some s) (c : Cmd F E)
    (hc : ∀ f k p, c ≠ .getTree f k p) (t : GS F E) (h : exec c s = .ok () t) :
    (C97_unsubscribed wi s t → ∃ r, execU wi c s = .ub r) ∧ (¬ C97_unsubscribed wi s t → execU wi c s = .ok () t) := by
  have k := execU_against (wi := wi) hc (runU_subsInv init_subsInv hr)
  refine ⟨fun hu => k.ends t h (unsubscribed_iff.1 hu), fun hu => ?_⟩
  rw [k.same t (by rw [h]; rfl) (fun ha => hu (unsubscribed_iff.2 ha)), h]

/-- The same for calls that throw, as far as no slot unsubscribes a subscribed view. -/
theorem C97_throws (wi : Wishes) (calls : List (Cmd F E)) (s : GS F E) (hr : runU wi calls init = some s) (c : Cmd F E)
    (hc : ∀ f k p, c ≠ .getTree f k p) (x : Exn) (t : GS F E) (h : exec c s = .throw x t) (hu : ¬ C97_unsubscribed wi s t) :
    execU wi c s = .throw x t := by
  have k := execU_against (wi := wi) hc (runU_subsInv init_subsInv hr)
  rw [k.same t (by rw [h]; rfl) (fun ha => hu (unsubscribed_iff.2 ha)), h]

/-- `getTree` that returns without slots returns with them: graph, events and trees are the same.  The slots of the view `p` that is
built can end every subscription that existed before; the new subscription of `p` itself comes after all signals. -/
theorem C97_getTree_partial (wi : Wishes) (calls : List (Cmd F E)) (s : GS F E) (hr : runU wi calls init = some s) (f : FrameId)
    (keep : Bool) (p : Nat) (t : GS F E) (h : exec (.getTree f keep p) s = .ok () t) :
    ∃ s', execU wi (.getTree f keep p) s = .ok () s' ∧ s'.g = t.g ∧ s'.trace = t.trace ∧
      (∀ q, C97_sameTree (t.views q) (s'.views q)) ∧
      ∀ q, q ∈ s'.subs ↔ (q = p ∧ keep = true) ∨ (q ∈ s.subs ∧
        ¬ ∃ k, (s.views p).signals.length < k ∧ k ≤ (t.views p).signals.length ∧ q ∈ wi p ((t.views p).signals.take k)) := by
  have hi := runU_subsInv init_subsInv hr
  simp only [exec, GS.getTree] at h
  simp only [execU, getTreeU]
  cases hv : s.g.vertexOf f with
  | none => simp [hv] at h
  | some v =>
    simp only [hv] at h ⊢
    cases hg : getTreeInto s.g v (s.views p) with
    | ub r => simp [hg] at h
    | throw x w => simp [hg] at h
    | ok u w =>
      simp only [hg] at h ⊢
      have hpub : w.publisher = (s.views p).publisher := getTreeInto_publisher (by rw [hg]; rfl)
      have hi1 : SubsInv { s with views := setView s.views p w } := by
        refine ⟨hi.1, fun q => ?_⟩
        by_cases hq : q = p
        · subst hq; simp only [setView, if_true, hpub]; exact hi.2 q
        · simp only [setView, if_neg hq]; exact hi.2 q
      have ho := OnlyUnsub.unsubscribeAll (told wi p (s.views p) w) { s with views := setView s.views p w }
      have hm := unsubscribeAll_mem (told wi p (s.views p) w) hi1
      have hi2 := hi1.unsubscribeAll (told wi p (s.views p) w)
      generalize unsubscribeAll (told wi p (s.views p) w) { s with views := setView s.views p w } = s1 at ho hm hi2
      have same : ∀ q, C97_sameTree (setView s.views p w q) (s1.views q) := by
        intro q
        have := ho.views q
        simp only at this
        refine ⟨?_, ?_, ?_, ?_⟩ <;> rw [← this]
      cases keep with
      | false =>
        simp only [Bool.false_eq_true, if_false] at h ⊢
        cases h
        refine ⟨s1, rfl, ho.g, ho.trace, same, fun q => ?_⟩
        rw [hm q, mem_told]
        simp [setView]
      | true =>
        simp only [if_true] at h ⊢
        unfold subscribeTreeView at h ⊢
        split at h
        · cases h
        · rename_i hnp
          have hp : p ∉ s.subs := by
            intro hh
            apply hnp
            simp only [setView, if_true, hpub]
            exact (hi.2 p).1 hh
          have hp1 : ¬ (s1.views p).publisher = true := fun hh => hp ((hm p).1 ((hi2.2 p).2 hh)).1
          rw [if_neg hp1]
          cases h
          refine ⟨_, rfl, ho.g, ho.trace, ?_, fun q => ?_⟩
          · intro q
            by_cases hq : q = p
            · subst hq
              have := same q
              simp only [setView, if_true] at this ⊢
              exact this
            · have := same q
              simp only [setView, if_neg hq] at this ⊢
              exact this
          · simp only [List.mem_append, List.mem_singleton, hm q, mem_told]
            simp only [setView, if_true, and_true]
            tauto

/-! ### examples -/

/-- demo: the frames "a" and "b" are connected; view 0 from "a" and view 1 from "b" are subscribed -/
def demoTwoViews : List (Cmd DemoFrame Int) := [.addEdge "a" "b" 3, .getTree "a" true 0, .getTree "b" true 1]

/-- demo: view 0 is unsubscribed as soon as it has emitted its second signal -/
def demoOnce : Wishes := fun p l => if p = 0 ∧ l.length = 2 then [0] else []

/-- the same with view 1 in place of view 0: the slots belong to view 0 -/
def demoOther : Wishes := fun p l => if p = 0 ∧ l.length = 2 then [1] else []

/-- demo: unsubscribes a view that is not subscribed -/
def demoNobody : Wishes := fun _ _ => [7]

/-- the new edge is the second signal of view 0: its slot unsubscribes the view, and the loop goes on with an invalid iterator -/
example : ((runU demoOnce demoTwoViews init).map fun s => (execU demoOnce (.addEdge "b" "c" 4) s) matches .ub _) = some true ∧
    ((runU demoOther demoTwoViews init).map fun s => (execU demoOther (.addEdge "b" "c" 4) s) matches .ub _) = some true ∧
    ((runU demoNobody demoTwoViews init).map fun s => (execU demoNobody (.addEdge "b" "c" 4) s) matches .ub _) = some false := by
  refine ⟨?_, ?_, ?_⟩ <;> decide +kernel

/-- the hypotheses of `C97_exact_partial`, both cases: a new edge that reaches the views, and one that does not -/
example : (((runU demoOnce demoTwoViews init).bind fun s => (exec (.addEdge "b" "c" 4) s).st?.map fun t =>
      ((s.views 0).signals.length, (t.views 0).signals.length, demoOnce 0 ((t.views 0).signals.take 2), s.subs)) = some (1, 2, [0], [0, 1])) ∧
    (((runU demoOnce demoTwoViews init).bind fun s => (execU demoOnce (.addEdge "d" "e" 4) s).st?.map fun t =>
      (t.subs, t.g.edges.length, t.trace.length)) = some ([0, 1], 4, 6)) := by
  refine ⟨?_, ?_⟩ <;> decide +kernel

/-- removing edges: the slot of the last signal of the last view ends the call as well -/
example : ((runU (fun p l => if p = 1 ∧ l.length = 2 then [1] else []) demoTwoViews init).map fun s =>
      (execU (fun p l => if p = 1 ∧ l.length = 2 then [1] else []) (.removeEdge "a" "b") s) matches .ub _) = some true ∧
    ((runU (fun p l => if p = 1 ∧ l.length = 2 then [1] else []) demoTwoViews init).map fun s =>
      (execU (fun p l => if p = 1 ∧ l.length = 2 then [1] else []) (.disconnectFrame "b") s) matches .ub _) = some true ∧
    ((runU (fun p l => if p = 1 ∧ l.length = 3 then [1] else []) demoTwoViews init).map fun s =>
      (execU (fun p l => if p = 1 ∧ l.length = 3 then [1] else []) (.disconnectFrame "b") s) matches .ub _) = some false := by
  refine ⟨?_, ?_, ?_⟩ <;> decide +kernel

/-- a call that throws: nothing is emitted, nothing is unsubscribed -/
example : ((runU demoOnce demoTwoViews init).map fun s => (execU demoOnce (.removeEdge "a" "x") s).exn?) =
    some (some (.unknownFrame "x")) := by decide +kernel

/-- an exception leaves the loop before the iterators are used: in a triangle the removal of a tree edge throws "NOT IMPLEMENTED", and
the view is not subscribed any more -/
example : ((runU (fun p l => if p = 0 ∧ l.length = 4 then [0] else [])
      ([.addEdge "a" "b" 3, .addEdge "a" "c" 4, .addEdge "b" "c" 5, .getTree "a" true 0] : List (Cmd DemoFrame Int)) init).bind fun s =>
    (match execU (fun p l => if p = 0 ∧ l.length = 4 then [0] else []) (.removeEdge "a" "b") s with
      | .throw x t => some (x, t.subs, (t.views 0).publisher)
      | _ => none)) = some (.runtimeError "NOT IMPLEMENTED", [], false) := by decide +kernel

/-- `getTree` of view 1 ends the subscription of view 0, and the wish to unsubscribe view 1 itself comes too early -/
example : ((runU (fun p _ => if p = 1 then [0, 1] else []) demoTwoViews init).map fun s =>
    (s.subs, (s.views 0).publisher, (s.views 1).publisher, (s.views 1).root)) = some ([1], false, true, some 1) := by decide +kernel

/-- the trees stay: view 0 is not updated any more, view 1 is -/
example : ((runU (fun p _ => if p = 1 then [0, 1] else []) (demoTwoViews ++ [.getTree "b" false 2]) init).map fun s =>
    ((s.views 0).tree.length, (s.views 1).tree.length, (s.views 2).tree.length, s.g.edges.length)) = some (2, 2, 2, 2) := by
  decide +kernel

/-- `getTree` of view 2 ends the subscriptions of both other views -/
example : ((runU (fun p _ => if p = 2 then [1, 0] else []) (demoTwoViews ++ [.getTree "b" true 2]) init).map fun s =>
    (s.subs, (s.views 0).publisher, (s.views 1).publisher, (s.views 2).publisher)) = some ([2], false, false, true) := by decide +kernel

/-- without such slots the removal of an edge is announced as usual, and the views follow -/
example : ((runU demoNobody demoTwoViews init).bind fun s => (execU demoNobody (.removeEdge "a" "b") s).st?.map fun t =>
    (t.trace.map Prod.fst, t.subs, (t.views 0).tree.map (·.1), (t.views 0).signals.getLast?)) =
    some ([.frameAdded "a", .frameAdded "b", .edgeAdded "a" "b" 0, .edgeRemoved "a" "b"], [0, 1], [0], some (.edgeRemoved 0 1)) := by decide +kernel

/-- the full statement fails: the slot of a view unsubscribes its own view when an edge is added -/
theorem C97_statement_fails : ¬ C97_statement DemoFrame Int := by
  intro h
  have hr : (runU demoOnce demoTwoViews init).isSome := by decide +kernel
  obtain ⟨s, hs⟩ := Option.isSome_iff_exists.1 hr
  have h1 : (runU demoOnce demoTwoViews init).bind (fun s => (exec (.addEdge "b" "c" 4) s).val?) = some () := by decide +kernel
  have h2 : (runU demoOnce demoTwoViews init).bind (fun s => (execU demoOnce (.addEdge "b" "c" 4) s).val?) = none := by decide +kernel
  rw [hs] at h1 h2
  simp only [Option.bind_some] at h1 h2
  cases he : exec (.addEdge "b" "c" 4) s with
  | throw x t => rw [he] at h1; cases h1
  | ub r => rw [he] at h1; cases h1
  | ok u t =>
    obtain ⟨s', k, -⟩ := h demoOnce demoTwoViews s hs _ t he
    rw [k] at h2
    cases h2

/-- Views that unsubscribe themselves when they emit a signal: every call that changes one of the subscribed views is undefined, whatever
else the graph contains. -/
theorem C97_self_fails (calls : List (Cmd F E)) (p : Nat) (s : GS F E) (hr : runU (fun q _ => [q]) calls init = some s) (hp : p ∈ s.subs)
    (c : Cmd F E) (hc : ∀ f k q, c ≠ .getTree f k q) (t : GS F E) (h : exec c s = .ok () t)
    (hn : (s.views p).signals.length < (t.views p).signals.length) : ∃ r, execU (fun q _ => [q]) c s = .ub r :=
  (C97_exact_partial _ calls s hr c hc t h).1 ⟨p, hp, _, hn, Nat.le_refl _, p, by simp, hp⟩

/-- the hypotheses of `C97_self_fails`: the new edge is a signal of both views -/
example : ((runU (fun q _ => [q]) demoTwoViews init).bind fun s => (exec (.addEdge "b" "c" 4) s).st?.map fun t =>
    (s.subs, (s.views 1).signals.length, (t.views 1).signals.length)) = some ([0, 1], 1, 2) := by decide +kernel

end Verif
