import Verif.Lemmas.ReuseAlloc
import Verif.Lemmas.Subs
import Mathlib.Data.List.Nodup

set_option linter.unusedSectionVars false
/-! Histories with an allocator that uses addresses again. -/

namespace Verif
open Equiv
namespace GS
variable {F E : Type} [FrameProp F] [EdgeProp E] {K : Nat → Prop} {π : Perm VId} {ρ : Perm EId}

theorem init_alike : Alike K (Equiv.refl _) (Equiv.refl _) (init : GS F E) init :=
  ⟨rfl, rfl, fun _ _ => ⟨rfl, rfl, rfl, rfl, rfl⟩, fun _ => rfl, .nil⟩

theorem treeTargets_cons (c : Cmd F E) (cs : List (Cmd F E)) : treeTargets (c :: cs) = treeTargets [c] ++ treeTargets cs := by
  cases c <;> rfl

/-- a call subscribes only the view that it was given -/
theorem exec_subs_targets {c : Cmd F E} {s s' : GS F E} (h : (exec c s).st? = some s') :
    ∀ p ∈ s'.subs, p ∈ s.subs ∨ p ∈ treeTargets [c] := by
  intro q hq
  have key : c.noView → q ∈ s.subs := fun hn => by rw [← (exec_safe hn h).1]; exact hq
  cases c with
  | getTree f k p =>
    simp only [exec, getTree] at h
    split at h
    · simp only [Res.st?, Option.some.injEq] at h; subst h; exact .inl hq
    · split at h
      · simp [Res.st?] at h
      · simp only [Res.st?, Option.some.injEq] at h; subst h; exact .inl hq
      · split at h
        · unfold subscribeTreeView at h
          split at h
          · simp [Res.st?] at h
          · simp only [Res.st?, Option.some.injEq] at h; subst h
            simp only [List.mem_append, List.mem_singleton] at hq
            rcases hq with hq | hq
            · exact .inl hq
            · right; simp [treeTargets, hq]
        · simp only [Res.st?, Option.some.injEq] at h; subst h; exact .inl hq
  | unsubscribeView p =>
    simp only [exec, Res.st?, Option.some.injEq] at h
    subst h
    left
    unfold unsubscribeView at hq
    split at hq
    · exact (List.mem_filter.1 hq).1
    · exact hq
  | _ => exact .inl (key trivial)

theorem matters_step {c : Cmd F E} {cs : List (Cmd F E)} {s s' : GS F E} (h : (exec c s).st? = some s') (p : Nat)
    (hp : Matters cs s' p) : Matters (c :: cs) s p := by
  unfold Matters at *
  rw [treeTargets_cons, List.mem_append]
  rcases hp with hp | hp
  · rcases exec_subs_targets h p hp with h | h
    · exact .inl h
    · exact .inr (.inl h)
  · exact .inr (.inr hp)

theorem AlikeO.mono {K' : Nat → Prop} {r r' : Res (GS F E) Unit} (h : AlikeO K r r')
    (hK : ∀ s, r.st? = some s → ∀ p, K' p → K p) : AlikeO K' r r' := by
  cases h with
  | ok h => exact .ok (h.mono (hK _ rfl))
  | throw h => exact .throw (h.mono (hK _ rfl))
  | ub => exact .ub

/-- what the two histories have in common -/
structure Same (cs : List (Cmd F E)) (s s' : GS F E) : Prop where
  wf : WF s.g
  below : Below s
  alike : ∃ π ρ, Alike (Matters cs s) π ρ s s'

theorem Same.avoids {al : Alloc F E} {cs : List (Cmd F E)} {s s' : GS F E} (h : Same cs s s') (ha : al.Avoids (Matters cs s') s') :
    al.Avoids (Matters cs s) s' := by
  obtain ⟨π, ρ, h1⟩ := h.alike
  intro p hp
  refine ha p ?_
  unfold Matters at *
  rw [h1.subs]; exact hp

theorem Same.step {al : Alloc F E} (hal : al.Sound) {c : Cmd F E} {cs : List (Cmd F E)} {s s' : GS F E} (h : Same (c :: cs) s s')
    (ha : al.Avoids (Matters (c :: cs) s) s') :
    AlikeO (Matters (c :: cs) s) (exec c s) (execA al c s') ∧
    ((∃ m, exec c s = .ub m ∧ execA al c s' = .ub m) ∨
      ∃ t t', (exec c s).st? = some t ∧ (execA al c s').st? = some t' ∧ Same cs t t') := by
  obtain ⟨π, ρ, h1⟩ := h.alike
  have hr := execA_ren hal h1 h.wf h.below ha (fun p hp => .inl hp) c
    (fun p hp => .inr (by rw [treeTargets_cons]; exact List.mem_append_left _ hp))
  refine ⟨hr, ?_⟩
  generalize he : exec c s = r at hr
  generalize he' : execA al c s' = r' at hr
  have key : ∀ t t' π ρ, r.st? = some t → Alike (Matters (c :: cs) s) π ρ t t' → Same cs t t' := by
    intro t t' π ρ ht hA
    rw [← he] at ht
    exact ⟨(exec_advances h.wf ht).wf h.wf, exec_below h.wf h.below ht, π, ρ, hA.mono (matters_step ht)⟩
  cases hr with
  | ok hA => exact .inr ⟨_, _, rfl, rfl, key _ _ _ _ rfl hA⟩
  | throw hA => exact .inr ⟨_, _, rfl, rfl, key _ _ _ _ rfl hA⟩
  | ub => exact .inl ⟨_, rfl, rfl⟩

theorem runA_cons (al : Alloc F E) (c : Cmd F E) (cs : List (Alloc F E × Cmd F E)) (s : GS F E) :
    runA ((al, c) :: cs) s = (execA al c s).st?.bind (runA cs) := by
  simp only [runA]
  cases execA al c s <;> rfl

theorem AvoidsAll.next {al : Alloc F E} {c : Cmd F E} {cs : List (Alloc F E × Cmd F E)} {s s' : GS F E} (h : AvoidsAll ((al, c) :: cs) s)
    (hs : (execA al c s).st? = some s') : AvoidsAll cs s' := by
  refine h.2.2 s' ?_
  cases he : execA al c s with
  | ok a t => rw [he] at hs; cases hs; exact .inl rfl
  | throw x t => rw [he] at hs; cases hs; exact .inr ⟨x, rfl⟩
  | ub m => rw [he] at hs; cases hs

theorem run_cons_eq (c : Cmd F E) (cs : List (Cmd F E)) (s : GS F E) : GS.run (c :: cs) s = (exec c s).st?.bind (GS.run cs) := by
  simp only [GS.run]
  cases exec c s <;> rfl

theorem Same.run {cs : List (Alloc F E × Cmd F E)} : ∀ {s s' : GS F E}, Same (cs.map Prod.snd) s s' → AvoidsAll cs s' →
    (GS.run (cs.map Prod.snd) s = none ∧ runA cs s' = none) ∨
    ∃ t t', GS.run (cs.map Prod.snd) s = some t ∧ runA cs s' = some t' ∧ Same [] t t' := by
  induction cs with
  | nil => intro s s' h _; exact .inr ⟨s, s', rfl, rfl, h⟩
  | cons x cs ih =>
    obtain ⟨al, c⟩ := x
    intro s s' h ha
    simp only [List.map_cons] at h ⊢
    rw [run_cons_eq, runA_cons]
    rcases (h.step ha.1 (h.avoids ha.2.1)).2 with ⟨m, h1, h2⟩ | ⟨t, t', h1, h2, h3⟩
    · left; rw [h1, h2]; exact ⟨rfl, rfl⟩
    · rw [h1, h2]; exact ih h3 (AvoidsAll.next ha h2)

theorem init_same (cs : List (Cmd F E)) : Same cs (init : GS F E) init := ⟨WF.empty, init_below, Equiv.refl _, Equiv.refl _, init_alike⟩

/-! Views that mention only what exists. -/

theorem Alike.upToDate {s s' : GS F E} (h : Alike K π ρ s s') {p : Nat} (hp : K p) (hu : (s.views p).UpToDate s.g) :
    (s'.views p).UpToDate s'.g := by
  have hv := h.views p hp
  have e1 : s'.g.verts.map VRec.id = (s.g.verts.map VRec.id).map π := by rw [h.g]; simp [G.ren, VRec.ren]
  have e2 : s'.g.edges.map ERec.id = (s.g.edges.map ERec.id).map ρ := by rw [h.g]; simp [G.ren, ERec.ren]
  have f1 : (s'.views p).vertexIds = (s.views p).vertexIds.map π := by
    unfold TreeView.vertexIds
    rw [hv.tree, hv.cross, hv.root]
    simp only [treeRen, List.flatMap_map, List.map_append, List.map_flatMap, VRel.ren, CrossEdge.ren, List.map_cons, List.map_nil]
    congr 1
    · congr 2
      funext x
      cases x.2.parent <;> rfl
    · cases (s.views p).root <;> rfl
  have f2 : (s'.views p).edgeIds = (s.views p).edgeIds.map ρ := by
    unfold TreeView.edgeIds
    rw [hv.cross]
    simp [CrossEdge.ren]
  unfold TreeView.UpToDate
  rw [e1, e2, f1, f2]
  exact ⟨List.map_subset _ hu.1, List.map_subset _ hu.2⟩

theorem upToDate_avoids {al : Alloc F E} (hal : al.Sound) {s : GS F E} (h : ∀ p, K p → (s.views p).UpToDate s.g) : al.Avoids K s := by
  intro p hp g h1 h2
  exact ⟨fun hm => (hal g).1 (h1 ((h p hp).1 hm)), fun hm => (hal g).2 (h2 ((h p hp).2 hm))⟩

theorem UpToDateAll.next {c : Cmd F E} {cs : List (Cmd F E)} {s s' : GS F E} (h : UpToDateAll (c :: cs) s)
    (hs : (exec c s).st? = some s') : UpToDateAll cs s' := by
  refine h.2 s' ?_
  cases he : exec c s with
  | ok a t => rw [he] at hs; cases hs; exact .inl rfl
  | throw x t => rw [he] at hs; cases hs; exact .inr ⟨x, rfl⟩
  | ub m => rw [he] at hs; cases hs

theorem Same.avoidsAll {cs : List (Alloc F E × Cmd F E)} : ∀ {s s' : GS F E}, Same (cs.map Prod.snd) s s' →
    (∀ x ∈ cs, x.1.Sound) → UpToDateAll (cs.map Prod.snd) s → AvoidsAll cs s' := by
  induction cs with
  | nil => intro s s' _ _ _; trivial
  | cons x cs ih =>
    obtain ⟨al, c⟩ := x
    intro s s' h hal hu
    have hs := hal _ (List.mem_cons_self ..)
    obtain ⟨π, ρ, hA⟩ := h.alike
    have ha : al.Avoids (Matters (c :: cs.map Prod.snd) s) s' :=
      upToDate_avoids hs (fun p hp => hA.upToDate hp (hu.1 p hp))
    refine ⟨hs, ?_, ?_⟩
    · intro p hp
      refine ha p ?_
      unfold Matters at *
      rw [← hA.subs]; exact hp
    · intro t' ht'
      have ht2 : (execA al c s').st? = some t' := by
        rcases ht' with h | ⟨x, h⟩ <;> rw [h] <;> rfl
      rcases (Same.step hs h ha).2 with ⟨m, h1, h2⟩ | ⟨t, t2, h1, h2, h3⟩
      · rw [h2] at ht2; cases ht2
      · rw [h2] at ht2; cases ht2
        exact ih h3 (fun x hx => hal x (List.mem_cons_of_mem _ hx)) (UpToDateAll.next hu h1)

theorem upToDateAll_of_no_views {cs : List (Cmd F E)} : ∀ {s : GS F E}, (∀ p, ¬ Matters cs s p) → UpToDateAll cs s := by
  induction cs with
  | nil => intro s _; trivial
  | cons c cs ih =>
    intro s h
    refine ⟨fun p hp => absurd hp (h p), fun s' hs' => ih (fun p hp => h p (matters_step ?_ p hp))⟩
    rcases hs' with h | ⟨x, h⟩ <;> rw [h] <;> rfl

theorem execA_counter (c : Cmd F E) (s : GS F E) : execA Alloc.counter c s = exec c s := by
  cases c <;> rfl

end GS

theorem firstFree_not_mem (l : List Nat) : firstFree l ∉ l := by
  unfold firstFree
  cases h : (List.range (l.length + 1)).find? (fun n => decide (n ∉ l)) with
  | some n => simpa using List.find?_some h
  | none =>
    exfalso
    have hsub : List.range (l.length + 1) ⊆ l := by
      intro n hn
      have := List.find?_eq_none.1 h n hn
      simpa using this
    have := (List.nodup_range (n := l.length + 1)).length_le_of_subset hsub
    simp only [List.length_range] at this
    omega

theorem lowest_sound {F E : Type} : (Alloc.lowest : Alloc F E).Sound := fun _ => ⟨firstFree_not_mem _, firstFree_not_mem _⟩

end Verif
