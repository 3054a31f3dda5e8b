import Verif.Spec.Lifetime
import Verif.Lemmas.Subs
set_option linter.unusedSectionVars false
set_option linter.unusedSimpArgs false
/-! Pointers between graphs and views in all programs. -/

namespace Verif
open GS TreeView
variable {F E : Type} [FrameProp F] [EdgeProp E]

/-- a call that subscribes the view `p` -/
def GS.Cmd.keeps (p : Nat) : Cmd F E → Prop
  | .getTree _ b q => b = true ∧ q = p
  | _ => False

theorem exec_pub {c : Cmd F E} (hc : ∀ p, c ≠ .unsubscribeView p) {s s' : GS F E} (h : (exec c s).st? = some s') :
    (∃ f p, c = .getTree f true p ∧ exec c s = .ok () s' ∧ (s.views p).publisher = false ∧ s'.subs = s.subs ++ [p] ∧
      ∀ q, (s'.views q).publisher = if q = p then true else (s.views q).publisher) ∨
    ((∀ f p, c = .getTree f true p → exec c s ≠ .ok () s') ∧ s'.subs = s.subs ∧ ∀ q, (s'.views q).publisher = (s.views q).publisher) := by
  have key : c.noView → (∀ f p, c = .getTree f true p → exec c s ≠ .ok () s') ∧ s'.subs = s.subs ∧
      ∀ q, (s'.views q).publisher = (s.views q).publisher := by
    intro hn
    obtain ⟨h1, h2⟩ := exec_safe hn h
    refine ⟨?_, h1, h2.2⟩
    rintro f p rfl
    exact hn.elim
  cases c with
  | getTree f k p =>
    simp only [exec, getTree] at h ⊢
    split at h
    · simp only [Res.st?, Option.some.injEq] at h; subst h
      rename_i hv
      right
      exact ⟨fun _ _ _ => by simp, rfl, fun _ => rfl⟩
    · split at h
      · simp [Res.st?] at h
      · rename_i x w hx
        have hpub := getTreeInto_publisher (by rw [hx]; rfl)
        simp only [Res.st?, Option.some.injEq] at h; subst h
        right
        refine ⟨fun _ _ _ => by simp, rfl, fun q => ?_⟩
        by_cases hq : q = p
        · subst hq; simp only [setView, if_true, hpub]
        · simp only [setView, if_neg hq]
      · rename_i x w hx
        have hpub := getTreeInto_publisher (by rw [hx]; rfl)
        split at h
        · rename_i hk
          subst hk
          unfold subscribeTreeView at h ⊢
          split at h
          · simp [Res.st?] at h
          · rename_i hnp
            have hnp' := hnp
            simp only [setView, if_true, hpub] at hnp'
            simp only [Res.st?, Option.some.injEq] at h; subst h
            left
            refine ⟨f, p, rfl, ?_, by simpa using hnp', rfl, fun q => ?_⟩
            · simp only [if_true]; rw [if_neg hnp]
            · by_cases hq : q = p
              · subst hq; simp [setView]
              · simp [setView, hq]
        · rename_i hk
          simp only [Res.st?, Option.some.injEq] at h; subst h
          right
          refine ⟨fun f' p' he => ?_, rfl, fun q => ?_⟩
          · cases he
            exact absurd rfl hk
          · by_cases hq : q = p
            · subst hq; simp only [setView, if_true, hpub]
            · simp only [setView, if_neg hq]
  | unsubscribeView p => exact absurd rfl (hc p)
  | _ => exact .inr (key trivial)

theorem owner_snoc (h : LHist F E) (x : LOp F E × Bool) : owner (h ++ [x]) = ownerStep (owner h) x := by
  simp [owner, List.foldl_append]

/-- the pointers are right and the lifetimes are those of the history -/
structure LInv (s : LW F E) (h : LHist F E) : Prop where
  pub : ∀ p, s.pub p = owner h p
  subs : ∀ k, s.graphLife k = .alive → (s.graphs k).subs.Nodup ∧ ∀ p, p ∈ (s.graphs k).subs ↔ s.pub p = some k
  view : ∀ p k, s.pub p = some k → s.viewLife p = .alive ∧ s.graphLife k ≠ .unborn
  graphMade : ∀ k, s.graphLife k = .unborn ↔ ¬ GraphMade h k
  graphGone : ∀ k, s.graphLife k = .dead ↔ GraphGone h k
  viewMade : ∀ p, s.viewLife p = .unborn ↔ ¬ ViewMade h p
  viewGone : ∀ p, s.viewLife p = .dead ↔ ViewGone h p

theorem init_linv : LInv (LW.init : LW F E) [] := by
  refine ⟨fun _ => rfl, ?_, ?_, ?_, ?_, ?_, ?_⟩ <;> simp [LW.init, GraphMade, GraphGone, ViewMade, ViewGone]

theorem Life.eq_alive {l : Life} : l = .alive ↔ l ≠ .unborn ∧ l ≠ .dead := by cases l <;> simp

theorem LInv.graphAlive {s : LW F E} {h : LHist F E} (i : LInv s h) (k : Nat) :
    s.graphLife k = .alive ↔ GraphMade h k ∧ ¬ GraphGone h k := by
  rw [Life.eq_alive, Ne, Ne, i.graphMade, i.graphGone, not_not]

theorem LInv.viewAlive {s : LW F E} {h : LHist F E} (i : LInv s h) (p : Nat) :
    s.viewLife p = .alive ↔ ViewMade h p ∧ ¬ ViewGone h p := by
  rw [Life.eq_alive, Ne, Ne, i.viewMade, i.viewGone, not_not]

theorem leave_spec {s t : LW F E} {p : Nat} (h : s.leave p = .ok () t) :
    t.graphLife = s.graphLife ∧ t.viewLife = s.viewLife ∧ (∀ q, t.pub q = if q = p then none else s.pub q) ∧
      ∀ k, (t.graphs k).subs = if s.pub p = some k then (s.graphs k).subs.filter (· ≠ p) else (s.graphs k).subs := by
  unfold LW.leave at h
  cases hp : s.pub p with
  | none =>
    rw [hp] at h
    cases h
    refine ⟨rfl, rfl, fun q => ?_, fun k => by simp⟩
    by_cases hq : q = p
    · subst hq; simp [hp]
    · simp [hq]
  | some j =>
    rw [hp] at h
    simp only at h
    split at h
    · cases h
      refine ⟨rfl, rfl, fun q => by simp [LW.setPub, LW.dropSub], fun k => ?_⟩
      by_cases hk : k = j
      · subst hk; simp [LW.setPub, LW.dropSub]
      · have hk' : ¬ j = k := fun x => hk x.symm
        simp [LW.setPub, LW.dropSub, hk, hk']
    · cases h

theorem leave_linv {s t : LW F E} {h : LHist F E} {p : Nat} (i : LInv s h) (hl : s.leave p = .ok () t) :
    (∀ k, t.graphLife k = .alive → (t.graphs k).subs.Nodup ∧ ∀ q, q ∈ (t.graphs k).subs ↔ t.pub q = some k) ∧
    ∀ q k, t.pub q = some k → q ≠ p ∧ t.viewLife q = .alive ∧ t.graphLife k ≠ .unborn := by
  obtain ⟨h1, h2, h3, h4⟩ := leave_spec hl
  constructor
  · intro k hk
    rw [h1] at hk
    obtain ⟨a, b⟩ := i.subs k hk
    rw [h4]
    split
    · refine ⟨a.sublist List.filter_sublist, fun q => ?_⟩
      rw [List.mem_filter, b, h3]
      by_cases hq : q = p <;> simp [hq]
    · rename_i hne
      refine ⟨a, fun q => ?_⟩
      rw [b, h3]
      by_cases hq : q = p
      · subst hq; simp [hne]
      · simp [hq]
  · intro q k hq
    rw [h3] at hq
    split at hq
    · cases hq
    · rename_i hne
      rw [h1, h2]
      exact ⟨hne, i.view q k hq⟩

theorem mem_snoc {α : Type} {a b : α} {l : List α} : a ∈ l ++ [b] ↔ a ∈ l ∨ a = b := by simp

theorem call_linv {s : LW F E} {h : LHist F E} {k : Nat} {c : Cmd F E} {t : GS F E} {b : Bool} (i : LInv s h)
    (hk : s.graphLife k = .alive) (hc : ∀ p, c ≠ .unsubscribeView p) (ha : ∀ f x p, c = .getTree f x p → s.viewLife p = .alive)
    (ht : (exec c (s.load k)).st? = some t) (hb : b = true ↔ exec c (s.load k) = .ok () t) : LInv (s.store k t) (h ++ [(.call k c, b)]) := by
  have hrest : ∀ j, GraphMade (h ++ [(.call k c, b)]) j ↔ GraphMade h j := fun j => by simp [GraphMade, mem_snoc]
  have hrest2 : ∀ j, GraphGone (h ++ [(.call k c, b)]) j ↔ GraphGone h j := fun j => by simp [GraphGone, mem_snoc]
  have hrest3 : ∀ j, ViewMade (h ++ [(.call k c, b)]) j ↔ ViewMade h j := fun j => by simp [ViewMade, mem_snoc]
  have hrest4 : ∀ j, ViewGone (h ++ [(.call k c, b)]) j ↔ ViewGone h j := fun j => by simp [ViewGone, mem_snoc]
  have hload : ∀ q, ((s.load k).views q).publisher = (s.pub q).isSome := fun _ => rfl
  have hsubs := i.subs k hk
  rcases exec_pub hc ht with ⟨f, p, hcp, hok, hfree, hsub, hpub⟩ | ⟨hno, hsub, hpub⟩
  · have hbt : b = true := hb.2 hok
    have hnone : s.pub p = none := by
      rw [hload] at hfree
      cases hx : s.pub p with
      | none => rfl
      | some j => rw [hx] at hfree; cases hfree
    have hstore : ∀ q, (s.store k t).pub q = if q = p then some k else s.pub q := by
      intro q
      simp only [LW.store, hpub q, hload]
      by_cases hq : q = p
      · subst hq; simp [hnone]
      · cases hx : s.pub q <;> simp [hq, hx]
    refine ⟨fun q => ?_, ?_, ?_, fun j => ?_, fun j => ?_, fun j => ?_, fun j => ?_⟩
    · rw [hstore, owner_snoc, hcp, hbt]
      simp only [ownerStep, ← i.pub]
    · intro j hj
      simp only [LW.store] at hj
      by_cases hjk : j = k
      · subst hjk
        simp only [LW.store, if_true, hsub]
        have hl : (s.load j).subs = (s.graphs j).subs := rfl
        rw [hl]
        have hpn : p ∉ (s.graphs j).subs := fun x => by rw [(hsubs.2 p).1 x] at hnone; cases hnone
        refine ⟨?_, fun q => ?_⟩
        · rw [List.nodup_append]
          refine ⟨hsubs.1, by simp, fun x hx y hy => ?_⟩
          rw [List.mem_singleton] at hy
          subst hy
          rintro rfl
          exact hpn hx
        · have := hstore q
          simp only [LW.store] at this
          rw [this, List.mem_append, List.mem_singleton, hsubs.2]
          by_cases hq : q = p <;> simp [hq]
      · have h2 := i.subs j hj
        have hg : (s.store k t).graphs j = s.graphs j := by simp [LW.store, hjk]
        rw [hg]
        refine ⟨h2.1, fun q => ?_⟩
        rw [h2.2, hstore]
        by_cases hq : q = p
        · subst hq
          have : ¬ k = j := fun x => hjk x.symm
          simp [hnone, this]
        · simp [hq]
    · intro q j hq
      rw [hstore] at hq
      by_cases hqp : q = p
      · subst hqp
        simp only [if_true, Option.some.injEq] at hq
        subst hq
        refine ⟨ha f true q hcp, ?_⟩
        show s.graphLife k ≠ _
        rw [hk]
        simp
      · simp only [if_neg hqp] at hq
        exact i.view q j hq
    · rw [hrest]; exact i.graphMade j
    · rw [hrest2]; exact i.graphGone j
    · rw [hrest3]; exact i.viewMade j
    · rw [hrest4]; exact i.viewGone j
  · have hstore : ∀ q, (s.store k t).pub q = s.pub q := by
      intro q
      simp only [LW.store, hpub q, hload]
      cases hx : s.pub q <;> simp
    have howner : owner (h ++ [(.call k c, b)]) = owner h := by
      rw [owner_snoc]
      cases c with
      | getTree f x p =>
        cases x with
        | false => rfl
        | true =>
          cases b with
          | false => rfl
          | true => exact absurd (hb.1 rfl) (hno f p rfl)
      | _ => rfl
    refine ⟨fun q => ?_, ?_, ?_, fun j => ?_, fun j => ?_, fun j => ?_, fun j => ?_⟩
    · rw [hstore, howner, i.pub]
    · intro j hj
      have h2 := i.subs j hj
      have hg : ((s.store k t).graphs j).subs = (s.graphs j).subs := by
        by_cases hjk : j = k
        · subst hjk; simp only [LW.store, if_true, hsub]; rfl
        · simp [LW.store, hjk]
      rw [hg]
      exact ⟨h2.1, fun q => by rw [h2.2, hstore]⟩
    · intro q j hq
      rw [hstore] at hq
      exact i.view q j hq
    · rw [hrest]; exact i.graphMade j
    · rw [hrest2]; exact i.graphGone j
    · rw [hrest3]; exact i.viewMade j
    · rw [hrest4]; exact i.viewGone j

/-- what a call needs to be executed -/
theorem step_call {s : LW F E} {k : Nat} {c : Cmd F E} {t : LW F E} (hs : (s.step (.call k c)).st? = some t) :
    s.graphLife k = .alive ∧ (∀ p, c ≠ .unsubscribeView p) ∧ (∀ f x p, c = .getTree f x p → s.viewLife p = .alive) ∧
    ∃ t', t = s.store k t' ∧ (exec c (s.load k)).st? = some t' ∧
      ((∃ u, s.step (.call k c) = .ok u t) ↔ exec c (s.load k) = .ok () t') := by
  have hc : ∀ p, c ≠ .unsubscribeView p := by
    rintro p rfl
    simp [LW.step, Res.st?] at hs
  have hst : s.step (.call k c) = 
      if s.graphLife k ≠ .alive then .ub "destroyed graph"
      else if (LW.argView c).any (fun p => s.viewLife p ≠ .alive) then .ub "getTree: destroyed view"
      else if LW.usesViews c && (s.graphs k).subs.any (fun p => s.viewLife p ≠ .alive) then .ub "subscribed view does not exist any more"
      else
        match GS.exec c (s.load k) with
        | .ok _ t => .ok () (s.store k t)
        | .throw x t => .throw x (s.store k t)
        | .ub r => .ub r := by
    cases c with
    | unsubscribeView p => exact absurd rfl (hc p)
    | _ => rfl
  rw [hst] at hs ⊢
  split at hs
  · simp [Res.st?] at hs
  · rename_i h1
    split at hs
    · simp [Res.st?] at hs
    · rename_i h2
      split at hs
      · simp [Res.st?] at hs
      · rename_i h3
        have h1' : s.graphLife k = .alive := by simpa using h1
        refine ⟨h1', hc, ?_, ?_⟩
        · rintro f x p rfl
          simpa [LW.argView] using h2
        · rw [if_neg h1, if_neg h2, if_neg h3]
          cases he : exec c (s.load k) with
          | ok u t' =>
            rw [he] at hs
            simp only [Res.st?, Option.some.injEq] at hs
            subst hs
            exact ⟨t', rfl, rfl, by simp⟩
          | throw x t' =>
            rw [he] at hs
            simp only [Res.st?, Option.some.injEq] at hs
            subst hs
            exact ⟨t', rfl, rfl, by simp⟩
          | ub r =>
            rw [he] at hs
            simp [Res.st?] at hs

theorem step_linv {s t : LW F E} {h : LHist F E} {o : LOp F E} (i : LInv s h) (hs : s.step o = .ok () t) : LInv t (h ++ [(o, true)]) := by
  cases o with
  | newGraph k =>
    simp only [LW.step] at hs
    split at hs
    · rename_i hk
      cases hs
      refine ⟨fun p => by rw [owner_snoc]; exact i.pub p, ?_, ?_, ?_, ?_, ?_, ?_⟩
      · intro j hj
        by_cases hjk : j = k
        · subst hjk
          simp only [if_true]
          refine ⟨List.nodup_nil, fun p => ⟨fun x => absurd x (by simp), fun x => ?_⟩⟩
          exact absurd hk (i.view p j x).2
        · simp only [if_neg hjk] at hj ⊢
          exact i.subs j hj
      · intro p j hp
        obtain ⟨a, b⟩ := i.view p j hp
        refine ⟨a, ?_⟩
        by_cases hjk : j = k
        · simp [hjk]
        · simp only [if_neg hjk]; exact b
      · intro j
        have := i.graphMade j
        simp only [GraphMade, mem_snoc] at this ⊢
        by_cases hjk : j = k
        · simp [hjk]
        · simp [hjk, this]
      · intro j
        have := i.graphGone j
        simp only [GraphGone, mem_snoc] at this ⊢
        by_cases hjk : j = k
        · subst hjk
          rw [hk] at this
          simpa using this
        · simpa [hjk] using this
      · intro p
        have := i.viewMade p
        simpa [ViewMade, mem_snoc] using this
      · intro p
        have := i.viewGone p
        simpa [ViewGone, mem_snoc] using this
    · cases hs
  | destroyGraph k =>
    simp only [LW.step] at hs
    split at hs
    · rename_i hk
      cases hs
      refine ⟨fun p => by rw [owner_snoc]; exact i.pub p, ?_, ?_, ?_, ?_, ?_, ?_⟩
      · intro j hj
        by_cases hjk : j = k
        · simp [hjk] at hj
        · simp only [if_neg hjk] at hj
          exact i.subs j hj
      · intro p j hp
        obtain ⟨a, b⟩ := i.view p j hp
        refine ⟨a, ?_⟩
        by_cases hjk : j = k
        · simp [hjk]
        · simp only [if_neg hjk]; exact b
      · intro j
        have := i.graphMade j
        simp only [GraphMade, mem_snoc] at this ⊢
        by_cases hjk : j = k
        · subst hjk
          rw [hk] at this
          simpa using this
        · simpa [hjk] using this
      · intro j
        have := i.graphGone j
        simp only [GraphGone, mem_snoc] at this ⊢
        by_cases hjk : j = k
        · simp [hjk]
        · simp [hjk, this]
      · intro p
        have := i.viewMade p
        simpa [ViewMade, mem_snoc] using this
      · intro p
        have := i.viewGone p
        simpa [ViewGone, mem_snoc] using this
    · cases hs
  | newView p =>
    simp only [LW.step] at hs
    split at hs
    · rename_i hk
      cases hs
      refine ⟨fun q => by rw [owner_snoc]; exact i.pub q, i.subs, ?_, ?_, ?_, ?_, ?_⟩
      · intro q j hq
        obtain ⟨a, b⟩ := i.view q j hq
        refine ⟨?_, b⟩
        by_cases hqp : q = p
        · subst hqp; simp [LW.setViewLife]
        · simp only [LW.setViewLife, if_neg hqp]; exact a
      · intro j
        have := i.graphMade j
        simpa [GraphMade, mem_snoc, LW.setViewLife] using this
      · intro j
        have := i.graphGone j
        simpa [GraphGone, mem_snoc, LW.setViewLife] using this
      · intro q
        have := i.viewMade q
        by_cases hqp : q = p
        · subst hqp; simp [ViewMade, LW.setViewLife]
        · simpa [ViewMade, mem_snoc, LW.setViewLife, hqp] using this
      · intro q
        have := i.viewGone q
        by_cases hqp : q = p
        · subst hqp
          rw [hk] at this
          simpa [ViewGone, mem_snoc, LW.setViewLife] using this
        · simpa [ViewGone, mem_snoc, LW.setViewLife, hqp] using this
    · cases hs
  | destroyView p =>
    simp only [LW.step] at hs
    split at hs
    · rename_i hk
      split at hs
      · rename_i u t1 hl
        cases hs
        obtain ⟨h1, h2, h3, h4⟩ := leave_spec hl
        obtain ⟨a, b⟩ := leave_linv i hl
        refine ⟨fun q => ?_, a, ?_, ?_, ?_, ?_, ?_⟩
        · rw [owner_snoc]
          simp only [ownerStep, ← i.pub]
          exact h3 q
        · intro q j hq
          obtain ⟨c, d, e⟩ := b q j hq
          refine ⟨?_, e⟩
          simp only [LW.setViewLife, if_neg c]
          exact d
        · intro j
          have := i.graphMade j
          simpa [GraphMade, mem_snoc, LW.setViewLife, h1] using this
        · intro j
          have := i.graphGone j
          simpa [GraphGone, mem_snoc, LW.setViewLife, h1] using this
        · intro q
          have := i.viewMade q
          by_cases hqp : q = p
          · subst hqp
            rw [hk] at this
            simpa [ViewMade, mem_snoc, LW.setViewLife] using this
          · simpa [ViewMade, mem_snoc, LW.setViewLife, h2, hqp] using this
        · intro q
          have := i.viewGone q
          by_cases hqp : q = p
          · subst hqp; simp [ViewGone, LW.setViewLife]
          · simpa [ViewGone, mem_snoc, LW.setViewLife, h2, hqp] using this
      · cases hs
      · cases hs
    · cases hs
  | unsubscribe p =>
    simp only [LW.step] at hs
    split at hs
    · obtain ⟨h1, h2, h3, h4⟩ := leave_spec hs
      obtain ⟨a, b⟩ := leave_linv i hs
      refine ⟨fun q => ?_, a, ?_, ?_, ?_, ?_, ?_⟩
      · rw [owner_snoc]
        simp only [ownerStep, ← i.pub]
        exact h3 q
      · intro q j hq
        exact (b q j hq).2
      · intro j
        have := i.graphMade j
        simpa [GraphMade, mem_snoc, h1] using this
      · intro j
        have := i.graphGone j
        simpa [GraphGone, mem_snoc, h1] using this
      · intro q
        have := i.viewMade q
        simpa [ViewMade, mem_snoc, h2] using this
      · intro q
        have := i.viewGone q
        simpa [ViewGone, mem_snoc, h2] using this
    · cases hs
  | moveView p q =>
    simp only [LW.step] at hs
    split at hs
    · rename_i hk
      obtain ⟨hpa, hqu⟩ := hk
      have hpq : p ≠ q := by rintro rfl; rw [hpa] at hqu; cases hqu
      have hqn : s.pub q = none := by
        cases hx : s.pub q with
        | none => rfl
        | some j => rw [(i.view q j hx).1] at hqu; cases hqu
      have hmain : ∀ t1, s.move p q = .ok () t1 → t1.graphLife = s.graphLife ∧ t1.viewLife = s.viewLife ∧
          (∀ x, t1.pub x = if x = q then s.pub p else if x = p then none else s.pub x) ∧
          ∀ k, (t1.graphs k).subs = if s.pub p = some k then (s.graphs k).subs.filter (· ≠ p) ++ [q] else (s.graphs k).subs := by
        intro t1 hm
        unfold LW.move at hm
        cases hp : s.pub p with
        | none =>
          rw [hp] at hm
          cases hm
          refine ⟨rfl, rfl, fun x => ?_, fun k => by simp⟩
          by_cases hxq : x = q
          · subst hxq; simp [hqn]
          · by_cases hxp : x = p
            · subst hxp; simp [hp]
            · simp [hxq, hxp]
        | some j =>
          rw [hp] at hm
          simp only at hm
          split at hm
          · cases hm
            refine ⟨rfl, rfl, fun x => by simp [LW.dropSub], fun k => ?_⟩
            by_cases hkj : k = j
            · subst hkj; simp [LW.dropSub]
            · have hk' : ¬ j = k := fun x => hkj x.symm
              simp [LW.dropSub, hkj, hk']
          · cases hm
      split at hs
      · rename_i u t1 hm
        cases hs
        obtain ⟨h1, h2, h3, h4⟩ := hmain t1 hm
        refine ⟨fun x => ?_, ?_, ?_, ?_, ?_, ?_, ?_⟩
        · rw [owner_snoc]
          simp only [ownerStep, ← i.pub]
          exact h3 x
        · intro k hk
          have hk' : s.graphLife k = .alive := by rw [← h1]; exact hk
          obtain ⟨a, b⟩ := i.subs k hk'
          have hqk : q ∉ (s.graphs k).subs := fun x => by rw [(b q).1 x] at hqn; cases hqn
          simp only [LW.setViewLife]
          rw [h4]
          split
          · rename_i hpk
            refine ⟨?_, fun x => ?_⟩
            · rw [List.nodup_append]
              refine ⟨a.sublist List.filter_sublist, by simp, ?_⟩
              intro x hx y hy
              rw [List.mem_singleton] at hy
              subst hy
              rintro rfl
              exact hqk (List.mem_filter.1 hx).1
            · rw [List.mem_append, List.mem_filter, List.mem_singleton, b, h3]
              by_cases hxq : x = q
              · simp [hxq, hpk]
              · by_cases hxp : x = p
                · simp [hxp, hpq]
                · simp [hxq, hxp]
          · rename_i hpk
            refine ⟨a, fun x => ?_⟩
            rw [b, h3]
            by_cases hxq : x = q
            · simp [hxq, hpk, hqn]
            · by_cases hxp : x = p
              · simp [hxp, hpq, hpk]
              · simp [hxq, hxp]
        · intro x k hx
          simp only [LW.setViewLife] at hx ⊢
          rw [h3] at hx
          rw [h1, h2]
          by_cases hxq : x = q
          · subst hxq
            simp only [if_true] at hx
            exact ⟨by simp, (i.view p k hx).2⟩
          · by_cases hxp : x = p
            · simp [hxp, hpq] at hx
            · simp only [if_neg hxq, if_neg hxp] at hx ⊢
              exact i.view x k hx
        · intro j
          have := i.graphMade j
          simpa [GraphMade, mem_snoc, LW.setViewLife, h1] using this
        · intro j
          have := i.graphGone j
          simpa [GraphGone, mem_snoc, LW.setViewLife, h1] using this
        · intro x
          have := i.viewMade x
          by_cases hxq : x = q
          · subst hxq
            simp only [LW.setViewLife, if_true, ViewMade, mem_snoc]
            refine ⟨(fun y => by cases y), fun y => absurd ?_ y⟩
            exact .inr ⟨p, .inr rfl⟩
          · simp only [LW.setViewLife, if_neg hxq, h2, this, ViewMade, mem_snoc]
            simp [hxq]
        · intro x
          have := i.viewGone x
          by_cases hxq : x = q
          · subst hxq
            rw [hqu] at this
            simpa [ViewGone, mem_snoc, LW.setViewLife] using this
          · simpa [ViewGone, mem_snoc, LW.setViewLife, h2, hxq] using this
      · cases hs
      · cases hs
    · cases hs
  | call k c =>
    obtain ⟨h1, h2, h3, t', h4, h5, h6⟩ := step_call (t := t) (by rw [hs]; rfl)
    subst h4
    exact call_linv i h1 h2 h3 h5 ⟨fun _ => h6.1 ⟨(), hs⟩, fun _ => rfl⟩

theorem step_throws {s t : LW F E} {o : LOp F E} {x : Exn} (hs : s.step o = .throw x t) : ∃ k c, o = .call k c := by
  have hleave : ∀ p y t', s.leave p ≠ .throw y t' := by
    intro p y t' hh
    unfold LW.leave at hh
    split at hh
    · cases hh
    · split at hh <;> cases hh
  cases o with
  | call k c => exact ⟨k, c, rfl⟩
  | newGraph k => simp only [LW.step] at hs; split at hs <;> cases hs
  | destroyGraph k => simp only [LW.step] at hs; split at hs <;> cases hs
  | newView k => simp only [LW.step] at hs; split at hs <;> cases hs
  | destroyView p =>
    simp only [LW.step] at hs
    split at hs
    · split at hs
      · cases hs
      · rename_i hl; exact absurd hl (hleave _ _ _)
      · cases hs
    · cases hs
  | unsubscribe p =>
    simp only [LW.step] at hs
    split at hs
    · exact absurd hs (hleave _ _ _)
    · cases hs
  | moveView p q =>
    simp only [LW.step] at hs
    split at hs
    · split at hs
      · cases hs
      · rename_i hl
        unfold LW.move at hl
        simp only at hl
        split at hl
        · cases hl
        · split at hl <;> cases hl
      · cases hs
    · cases hs

theorem step_linv_throw {s t : LW F E} {h : LHist F E} {o : LOp F E} {x : Exn} (i : LInv s h) (hs : s.step o = .throw x t) :
    LInv t (h ++ [(o, false)]) := by
  obtain ⟨k, c, rfl⟩ := step_throws hs
  obtain ⟨h1, h2, h3, t', h4, h5, h6⟩ := step_call (t := t) (by rw [hs]; rfl)
  subst h4
  refine call_linv i h1 h2 h3 h5 ⟨fun y => (by cases y), fun y => ?_⟩
  obtain ⟨u, hu⟩ := h6.2 y
  rw [hs] at hu
  cases hu

theorem run_linv {os : List (LOp F E)} : ∀ {s t : LW F E} {h h' : LHist F E}, LInv s h → LW.run os s = some (t, h') → LInv t (h ++ h') := by
  induction os with
  | nil =>
    intro s t h h' i hr
    simp only [LW.run, Option.some.injEq, Prod.mk.injEq] at hr
    obtain ⟨rfl, rfl⟩ := hr
    simpa using i
  | cons o os ih =>
    intro s t h h' i hr
    unfold LW.run at hr
    split at hr
    · rename_i u t1 h1
      cases hx : LW.run os t1 with
      | none => rw [hx] at hr; cases hr
      | some r =>
        rw [hx] at hr
        simp only [Option.map_some, Option.some.injEq, Prod.mk.injEq] at hr
        obtain ⟨rfl, rfl⟩ := hr
        have := ih (step_linv i h1) hx
        simpa using this
    · rename_i x t1 h1
      cases hx : LW.run os t1 with
      | none => rw [hx] at hr; cases hr
      | some r =>
        rw [hx] at hr
        simp only [Option.map_some, Option.some.injEq, Prod.mk.injEq] at hr
        obtain ⟨rfl, rfl⟩ := hr
        have := ih (step_linv_throw i h1) hx
        simpa using this
    · cases hr

/-- exactly when a proper operation is undefined -/
theorem step_ub_iff {s : LW F E} {h : LHist F E} (i : LInv s h) {o : LOp F E} (ho : Proper h s o) :
    (∃ r, s.step o = .ub r) ↔ ∃ p k, o.ends p ∧ owner h p = some k ∧ GraphGone h k := by
  have hleave : ∀ p, (∃ r, s.leave p = .ub r) ↔ ∃ k, owner h p = some k ∧ GraphGone h k := by
    intro p
    unfold LW.leave
    rw [i.pub]
    cases hx : owner h p with
    | none => simp
    | some k =>
      have h1 : GraphGone h k ↔ s.graphLife k ≠ .alive := by
        rw [← i.graphGone]
        have := (i.view p k ((i.pub p).trans hx)).2
        revert this
        cases s.graphLife k <;> simp
      simp only [Option.some.injEq]
      split
      · rename_i ha
        simp [ha, h1]
      · rename_i ha
        simp [ha, h1]
  cases o with
  | newGraph k =>
    have := (i.graphMade k).2 ho
    simp [LW.step, this, LOp.ends]
  | destroyGraph k =>
    have := (i.graphAlive k).2 ho
    simp [LW.step, this, LOp.ends]
  | newView p =>
    have := (i.viewMade p).2 ho
    simp [LW.step, this, LOp.ends]
  | destroyView p =>
    have h1 := (i.viewAlive p).2 ho
    have h2 := hleave p
    simp only [LW.step, h1, if_true, LOp.ends]
    have h3 : (∃ p' k, p = p' ∧ owner h p' = some k ∧ GraphGone h k) ↔ ∃ k, owner h p = some k ∧ GraphGone h k := by
      constructor
      · rintro ⟨p', k, rfl, hh⟩; exact ⟨k, hh⟩
      · rintro ⟨k, hh⟩; exact ⟨p, k, rfl, hh⟩
    rw [h3, ← h2]
    cases s.leave p <;> simp
  | unsubscribe p =>
    have h1 := (i.viewAlive p).2 ho
    have h2 := hleave p
    simp only [LW.step, h1, if_true, LOp.ends]
    rw [h2]
    constructor
    · rintro ⟨k, hh⟩; exact ⟨p, k, rfl, hh⟩
    · rintro ⟨p', k, rfl, hh⟩; exact ⟨k, hh⟩
  | moveView p q =>
    have h1 := (i.viewAlive p).2 ⟨ho.1, ho.2.1⟩
    have h1' := (i.viewMade q).2 ho.2.2
    have h2 := hleave p
    have h3 : (∃ r, s.move p q = .ub r) ↔ ∃ r, s.leave p = .ub r := by
      unfold LW.move LW.leave
      cases s.pub p with
      | none => simp
      | some k => by_cases hk : s.graphLife k = .alive <;> simp [hk]
    simp only [LW.step, h1, h1', and_self, if_true, LOp.ends]
    constructor
    · rintro ⟨r, hx⟩
      have : ∃ r, s.move p q = .ub r := by
        revert hx
        cases s.move p q <;> simp
      obtain ⟨k, hk⟩ := h2.1 (h3.1 this)
      exact ⟨p, k, rfl, hk⟩
    · rintro ⟨p', k, rfl, hk⟩
      obtain ⟨r, hx⟩ := h3.2 (h2.2 ⟨k, hk⟩)
      exact ⟨r, by rw [hx]⟩
  | call k c =>
    obtain ⟨h1, h2, h3, h4, h5⟩ := ho
    have hk := (i.graphAlive k).2 ⟨h1, h2⟩
    have hsub : ∀ p ∈ (s.graphs k).subs, s.viewLife p = .alive := fun p hp => (i.view p k (((i.subs k hk).2 p).1 hp)).1
    have hany : ((s.graphs k).subs.any fun p => decide (s.viewLife p ≠ .alive)) = false := by
      rw [List.any_eq_false]
      intro p hp
      simp [hsub p hp]
    have harg : ((LW.argView c).any fun p => decide (s.viewLife p ≠ .alive)) = false := by
      cases c with
      | getTree f b p =>
        have := (i.viewAlive p).2 (h4 f b p rfl)
        simp [LW.argView, this]
      | unsubscribeView p => exact absurd rfl (h3 p)
      | _ => rfl
    have hst : ∀ r, s.step (.call k c) ≠ .ub r := by
      intro r
      have : s.step (.call k c) = match GS.exec c (s.load k) with
          | .ok _ t => .ok () (s.store k t)
          | .throw x t => .throw x (s.store k t)
          | .ub r => .ub r := by
        cases c with
        | unsubscribeView p => exact absurd rfl (h3 p)
        | _ =>
          simp only [LW.step]
          rw [if_neg (by simp [hk]), if_neg (by simp only [harg]; simp), if_neg (by simp only [hany]; simp)]
          generalize GS.exec (F := F) (E := E) _ _ = R
          cases R <;> rfl
      rw [this]
      cases hx : GS.exec c (s.load k) with
      | ok u t => simp
      | throw x t => simp
      | ub r' => exact absurd hx (h5 r')
    constructor
    · rintro ⟨r, hx⟩; exact absurd hx (hst r)
    · rintro ⟨p, j, hx, -⟩; exact hx.elim

end Verif
