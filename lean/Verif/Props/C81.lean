import Verif.Spec.Viz
import Verif.Spec.Demo
/-! # C81: the list of possible roots of the structure visualization -/

namespace Verif
open Viz

/-- After new data, whatever happened before: the offered names are exactly the frames of the graph, each once, and the root that is
drawn comes first.  The root stays the same if it is a frame of the graph; otherwise it is the first frame. -/
theorem C81_offer (v : Sel) (names : List FrameId) (hn : names.Nodup) :
    (v.initNodeList names).getNodes.Perm names ∧
    (names ≠ [] → (v.initNodeList names).getNodes.head? = some (v.initNodeList names).currentRoot) ∧
    (v.currentRoot ∈ names → (v.initNodeList names).currentRoot = v.currentRoot) ∧
    (v.currentRoot ∉ names → (v.initNodeList names).currentRoot = names.headD "") := by
  have hperm : ∀ r, r ∈ names → (r :: names.filter (fun x => x ≠ r)).Perm names := by
    intro r hr
    have e : names.filter (fun x => decide (x ≠ r)) = names.erase r := by
      rw [List.Nodup.erase_eq_filter hn]
      exact List.filter_congr (fun x _ => by by_cases h : x = r <;> simp [h])
    rw [e]
    exact (List.perm_cons_erase hr).symm
  cases names with
  | nil => simp [Sel.initNodeList, Sel.getNodes]
  | cons f l =>
    by_cases hc : v.currentRoot ∈ f :: l
    · have hp := hperm _ hc
      simp only [Sel.initNodeList, if_pos hc, Sel.getNodes]
      refine ⟨?_, ?_, fun _ => trivial, fun h => absurd hc h⟩
      · split
        · simpa using hp
        · exact hp
      · intro _; split <;> rfl
    · simp only [Sel.initNodeList, if_neg hc, Sel.getNodes]
      refine ⟨?_, ?_, fun h => absurd h hc, fun _ => rfl⟩
      · split <;> simp
      · intro _; split <;> rfl

/-- Once chosen, a frame stays the root for every further history of new data that contains it, refreshes and choices of nothing. -/
theorem C81_root_kept (ops ops' : List VizOp) (r : FrameId) (l : List FrameId)
    (h : ∀ op ∈ ops', op = .refresh ∨ op = .choose [] ∨ ∃ names, op = .update names ∧ r ∈ names) :
    (play (ops ++ .choose (r :: l) :: ops')).currentRoot = r := by
  have key : ∀ (ops' : List VizOp), (∀ op ∈ ops', op = .refresh ∨ op = .choose [] ∨ ∃ names, op = .update names ∧ r ∈ names) →
      ∀ v : Sel, v.currentRoot = r → (ops'.foldl VizOp.app v).currentRoot = r := by
    intro ops'
    induction ops' with
    | nil => intro _ v hv; exact hv
    | cons op ops' ih =>
      intro h v hv
      refine ih (fun o ho => h o (by simp [ho])) _ ?_
      rcases h op (by simp) with rfl | rfl | ⟨names, rfl, hr⟩
      · simp only [VizOp.app, Sel.updateMainNode]
        split <;> exact hv
      · exact hv
      · cases names with
        | nil => cases hr
        | cons f m =>
          simp only [VizOp.app, Sel.initNodeList]
          rw [if_pos (by rw [hv]; exact hr)]
          exact hv
  rw [play, List.foldl_append, List.foldl_cons]
  exact key ops' h _ rfl

/-- After new data and a refresh the window is right. -/
def C81_statement : Prop :=
  ∀ (ops : List VizOp) (names : List FrameId), names.Nodup →
    (play (ops ++ [.update names, .refresh])).Right names

/-- Missing compared to `C81_statement`: new data that comes twice before a refresh, and choices that are not a reordering of the names
that the window offers.  In all states of a window that is refreshed after each update it is right, also after a choice. -/
theorem C81_window_partial (v : Sel) (names : List FrameId) (h : Calm v names) : v.Right names := by
  suffices H : v.offer.Perm v.nextNodes ∧ v.nodes.Perm v.nextNodes ∧ v.nextNodes.Perm names ∧ v.nextNodes.Nodup ∧ "" ∉ v.nextNodes ∧
      ((v.nextNodes = [] ∧ v.currentRoot = "" ∧ v.sel = none) ∨ (v.currentRoot ∈ v.nextNodes ∧ v.sel = some v.currentRoot)) by
    obtain ⟨h1, -, h3, -, -, h6⟩ := H
    refine ⟨h1.trans h3, ?_⟩
    rcases h6 with ⟨e1, -, e3⟩ | ⟨e1, e2⟩
    · rw [e1] at h3
      rw [if_pos (List.nil_perm.1 h3), e3]
    · rw [if_neg (by rintro rfl; rw [List.perm_nil.1 h3] at e1; cases e1), e2]
  induction h with
  | start => simp
  | @update v l names h hn hne ih =>
    obtain ⟨h1, h2, h3, h4, h5, h6⟩ := ih
    obtain ⟨o1, o2, o3, o4⟩ := C81_offer v names hn
    -- the new list
    have e : (v.initNodeList names).nextNodes = (v.initNodeList names).getNodes ∧ (v.initNodeList names).nodes = v.nodes ∧
        (v.initNodeList names).sel = v.sel ∧ (v.initNodeList names).offer = v.offer ∧
        (names = [] → (v.initNodeList names).currentRoot = "") := by
      cases names with
      | nil => simp [Sel.initNodeList, Sel.getNodes]
      | cons f m =>
        by_cases hc : v.currentRoot ∈ f :: m
        · simp only [Sel.initNodeList, if_pos hc, Sel.getNodes]
          refine ⟨?_, trivial, trivial, trivial, nofun⟩
          split <;> simp
        · simp only [Sel.initNodeList, if_neg hc, Sel.getNodes]
          refine ⟨?_, trivial, trivial, trivial, nofun⟩
          split <;> simp
    generalize hv' : v.initNodeList names = v' at *
    obtain ⟨e1, e2, e3, e4, e5⟩ := e
    have hnx : v'.nextNodes.Perm names := e1 ▸ o1
    have hroot : (names = [] ∧ v'.currentRoot = "") ∨ v'.currentRoot ∈ v'.nextNodes := by
      by_cases h0 : names = []
      · exact Or.inl ⟨h0, e5 h0⟩
      · right
        have := o2 h0
        rw [← e1] at this
        exact List.mem_of_head? this
    have hnd : v'.nextNodes.Nodup := hnx.nodup_iff.2 hn
    have hem : "" ∉ v'.nextNodes := fun hh => hne (hnx.mem_iff.1 hh)
    unfold Sel.updateMainNode
    by_cases hq : v'.nextNodes = v'.nodes
    · rw [if_neg (by simpa using hq)]
      have hqp : v'.nextNodes.Perm v.nextNodes := by rw [hq, e2]; exact h2
      refine ⟨by rw [e4]; exact h1.trans hqp.symm, by rw [hq], hnx, hnd, hem, ?_⟩
      rcases h6 with ⟨k1, k2, k3⟩ | ⟨k1, k2⟩
      · left
        have h0 : v'.nextNodes = [] := by rw [k1] at hqp; exact List.perm_nil.1 hqp
        rw [h0] at hnx
        exact ⟨h0, e5 (List.nil_perm.1 hnx), e3.trans k3⟩
      · right
        have hm : v.currentRoot ∈ names := hnx.mem_iff.1 (hqp.mem_iff.2 k1)
        rw [o3 hm, e3]
        exact ⟨hqp.mem_iff.2 k1, k2⟩
    · rw [if_pos hq]
      refine ⟨by show v'.getNodes.Perm v'.nextNodes; rw [e1], .rfl, hnx, hnd, hem, ?_⟩
      rcases hroot with ⟨h0, h0'⟩ | hr
      · left
        have hx : v'.nextNodes = [] := by rw [h0] at hnx; exact List.perm_nil.1 hnx
        refine ⟨hx, h0', ?_⟩
        show v'.getNodes.head? = none
        rw [← e1, hx]; rfl
      · right
        exact ⟨hr, o2 (by rintro rfl; rw [List.perm_nil.1 hnx] at hr; cases hr)⟩
  | @choose v l values h hp ih =>
    obtain ⟨h1, h2, h3, h4, h5, h6⟩ := ih
    cases values with
    | nil =>
      have h0 := List.nil_perm.1 hp
      rw [h0] at h1
      exact ⟨show v.offer.Perm v.nextNodes from h0 ▸ h1, h1, h3, h4, h5, h6⟩
    | cons r m =>
      have hr : r ∈ v.nextNodes := (hp.trans h1).mem_iff.1 (by simp)
      exact ⟨h1, hp.trans h1, h3, h4, h5, Or.inr ⟨hr, rfl⟩⟩
  | @refresh v l h ih =>
    obtain ⟨h1, h2, h3, h4, h5, h6⟩ := ih
    unfold Sel.updateMainNode
    split
    · rcases h6 with ⟨k1, k2, k3⟩ | ⟨k1, k2⟩
      · simp only [Sel.getNodes, k1, k2]
        simpa [k1] using h3
      · have hne : v.currentRoot ≠ "" := fun hh => h5 (hh ▸ k1)
        have hx : v.nextNodes ≠ [] := by intro hh; rw [hh] at k1; cases k1
        simp only [Sel.getNodes, if_pos (And.intro hne hx)]
        exact ⟨(List.perm_cons_erase k1).symm, .rfl, h3, h4, h5, Or.inr ⟨k1, rfl⟩⟩
    · exact ⟨h1, h2, h3, h4, h5, h6⟩

/-- The full statement is false.  The user chooses "b"; then "b" is removed and added again before the next refresh: "a" is drawn, but the
new list is the old one, the window is not told and shows "b" as chosen. -/
theorem C81_statement_fails : ¬ C81_statement := by
  intro H
  have h := (H [.update ["a", "b", "c"], .refresh, .choose ["b"], .refresh, .update ["a", "c"]] ["a", "b", "c"] (by decide)).2
  revert h
  decide

/-- The user chooses a frame that the window still offers although it was removed: the window shows it as chosen forever, also after
any number of updates and refreshes, while "a" is drawn; after a refresh it even offers the removed frame. -/
theorem C81_stale_choice_fails (n : Nat) :
    let ops := [.update ["a", "b", "c"], .refresh, .update ["a", "c"], .choose ["b"], .refresh] ++
      (List.replicate n [VizOp.update ["a", "c"], .refresh]).flatten
    (play ops).sel = some "b" ∧ "b" ∈ (play ops).offer ∧ (0 < n → (play ops).currentRoot = "a") := by
  intro ops
  have key : ∀ (n : Nat) (v : Sel), v.nodes = ["a", "c"] → v.nextNodes = ["a", "c"] → v.sel = some "b" → "b" ∈ v.offer →
      (v.currentRoot = "b" ∨ v.currentRoot = "a") →
      (((List.replicate n [VizOp.update ["a", "c"], .refresh]).flatten).foldl VizOp.app v).sel = some "b" ∧
      "b" ∈ (((List.replicate n [VizOp.update ["a", "c"], .refresh]).flatten).foldl VizOp.app v).offer ∧
      ((0 < n ∨ v.currentRoot = "a") →
        (((List.replicate n [VizOp.update ["a", "c"], .refresh]).flatten).foldl VizOp.app v).currentRoot = "a") := by
    intro n
    induction n with
    | zero => intro v _ _ h3 h4 _; exact ⟨h3, h4, fun h => h.resolve_left (by omega)⟩
    | succ n ih =>
      intro v h1 h2 h3 h4 h5
      rw [List.replicate_succ, List.flatten_cons, List.foldl_append]
      have e : [VizOp.update ["a", "c"], .refresh].foldl VizOp.app v = { v with currentRoot := "a" } := by
        obtain ⟨nodes, next, root, offer, sel⟩ := v
        obtain rfl : nodes = ["a", "c"] := h1
        obtain rfl : next = ["a", "c"] := h2
        rcases h5 with h5 | h5
        · obtain rfl : root = "b" := h5
          rfl
        · obtain rfl : root = "a" := h5
          rfl
      rw [e]
      obtain ⟨i1, i2, i3⟩ := ih { v with currentRoot := "a" } h1 h2 h3 h4 (Or.inr rfl)
      exact ⟨i1, i2, fun _ => i3 (Or.inr rfl)⟩
  have hv := key n (play [.update ["a", "b", "c"], .refresh, .update ["a", "c"], .choose ["b"], .refresh]) (by decide) (by decide)
    (by decide) (by decide) (by decide)
  have e : play ops = ((List.replicate n [VizOp.update ["a", "c"], .refresh]).flatten).foldl VizOp.app
      (play [.update ["a", "b", "c"], .refresh, .update ["a", "c"], .choose ["b"], .refresh]) := by
    simp only [ops, play, List.foldl_append]
  rw [e]
  exact ⟨hv.1, hv.2.1, fun h => hv.2.2 (Or.inl h)⟩

/-- If the choice names only the chosen frame and all other frames are removed, the window goes on offering them. -/
theorem C81_single_choice_fails :
    let v := play [.update ["a", "b", "c"], .refresh, .choose ["b"], .update ["b"], .refresh]
    v.sel = some "b" ∧ v.currentRoot = "b" ∧ v.offer = ["a", "b", "c"] := by decide

/-- a calm history with a choice, a removal of the root and a new frame -/
example : ∃ v, Calm v ["a", "c", "d"] ∧ v.sel = some "a" ∧ v.offer = ["a", "c", "d"] ∧
    (∃ v', Calm v' ["a", "b", "c"] ∧ v'.sel = some "b" ∧ v'.offer = ["b", "a", "c"]) := by
  refine ⟨_, .update ["a", "c", "d"] (.update ["a", "b", "c"] (.choose ["b", "a", "c"] (.update ["a", "b", "c"] .start ?_ ?_) ?_) ?_ ?_) ?_ ?_,
    ?_, ?_, _, .update ["a", "b", "c"] (.choose ["b", "a"] (.update ["a", "b"] (.update ["a", "b", "c"] .start ?_ ?_) ?_ ?_) ?_) ?_ ?_, ?_, ?_⟩ <;> decide

/-- the chosen frame stays the root -/
example : (play [.update ["a", "b"], .choose ["b"], .refresh, .update ["c", "b", "a"], .refresh]).currentRoot = "b" ∧
    (play [.update ["a", "b"], .choose ["b"], .update ["c", "a"], .refresh]).currentRoot = "c" ∧
    (play [.update ["a", "b"], .choose ["b"], .update ["c", "b", "a"]]).getNodes = ["b", "c", "a"] := by decide

/-- what the window shows: the root comes first and is the one that is marked -/
example : (play [.update ["a", "b"], .refresh, .choose ["b", "a"], .update ["c", "b", "a"], .refresh]).offer = ["b", "c", "a"] ∧
    (play [.update ["a", "b"], .refresh, .choose ["b", "a"], .update ["c", "b", "a"], .refresh]).sel = some "b" ∧
    (play [.update ["a", "b"], .refresh, .choose ["b", "a"], .update ["c", "b", "a"], .refresh]).nodes = ["b", "c", "a"] ∧
    (play [.update ["a", "b"], .refresh, .update [], .refresh]).offer = [] := by decide

/-- the last frame of the graph goes: there is no root any more; a choice changes the order of the names -/
example : (play [.update ["a", "b"], .refresh, .update []]).currentRoot = "" ∧
    (play [.update ["a", "b"], .refresh, .choose ["b", "a"]]).nodes = ["b", "a"] := by decide

/-- a choice before the window was refreshed: the chosen frame comes first -/
example : (play [.update ["a", "b"], .choose ["b"], .refresh]).offer = ["b", "a"] ∧
    (play [.update ["a", "b"], .choose ["b"], .refresh]).sel = some "b" ∧ (play [.update ["a", "b"], .choose ["b"], .refresh]).nodes = ["a", "b"] := by decide

end Verif
