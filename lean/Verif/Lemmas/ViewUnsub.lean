import Verif.Lemmas.ViewSlots
import Verif.Model.ViewUnsub
set_option linter.unusedSectionVars false
/-! Lemmas about slots that unsubscribe views. -/

namespace Verif
open TreeView
variable {F E : Type} [FrameProp F] [EdgeProp E]
namespace GS

theorem mem_told {wi : Wishes} {p q : Nat} {w w' : TreeView} :
    q ∈ told wi p w w' ↔ ∃ k, w.signals.length < k ∧ k ≤ w'.signals.length ∧ q ∈ wi p (w'.signals.take k) := by
  simp only [told, List.mem_flatMap, List.mem_range]
  constructor
  · rintro ⟨k, h1, h2⟩; exact ⟨w.signals.length + k + 1, by omega, by omega, h2⟩
  · rintro ⟨k, h1, h2, h3⟩
    refine ⟨k - w.signals.length - 1, by omega, ?_⟩
    rw [show w.signals.length + (k - w.signals.length - 1) + 1 = k by omega]; exact h3

theorem SubsInv.unsubscribeView {s : GS F E} (hi : SubsInv s) (q : Nat) : SubsInv (GS.unsubscribeView q s) :=
  exec_subsInv (c := .unsubscribeView q) hi rfl

theorem unsubscribeView_mem {s : GS F E} (hi : SubsInv s) (q r : Nat) : r ∈ (GS.unsubscribeView q s).subs ↔ r ∈ s.subs ∧ r ≠ q := by
  unfold GS.unsubscribeView
  split
  · simp
  · rename_i h
    constructor
    · intro hr; exact ⟨hr, by rintro rfl; exact h ((hi.2 _).1 hr)⟩
    · exact And.left

theorem SubsInv.unsubscribeAll (qs : List Nat) : ∀ {s : GS F E}, SubsInv s → SubsInv (unsubscribeAll qs s) := by
  induction qs with
  | nil => intro s hi; exact hi
  | cons q qs ih => intro s hi; exact ih (hi.unsubscribeView q)

theorem unsubscribeAll_mem (qs : List Nat) : ∀ {s : GS F E}, SubsInv s → ∀ r, r ∈ (unsubscribeAll qs s).subs ↔ r ∈ s.subs ∧ r ∉ qs := by
  induction qs with
  | nil => intro s _ r; simp [unsubscribeAll]
  | cons q qs ih =>
    intro s hi r
    have h1 := ih (hi.unsubscribeView q) r
    have h2 := unsubscribeView_mem hi q r
    change r ∈ (unsubscribeAll qs (GS.unsubscribeView q s)).subs ↔ _
    rw [h1, h2]
    simp only [List.mem_cons, not_or]
    tauto

theorem unsubscribeAll_none (qs : List Nat) {s : GS F E} (hi : SubsInv s) (h : ∀ q ∈ qs, q ∉ s.subs) : unsubscribeAll qs s = s := by
  induction qs with
  | nil => rfl
  | cons q qs ih =>
    have hq : GS.unsubscribeView q s = s := by
      unfold GS.unsubscribeView
      rw [if_neg]
      intro hp; exact h q (by simp) ((hi.2 q).2 hp)
    change unsubscribeAll qs (GS.unsubscribeView q s) = s
    rw [hq]
    exact ih (fun q' hq' => h q' (by simp [hq']))

/-- only subscriptions change -/
structure OnlyUnsub (s s' : GS F E) : Prop where
  g : s'.g = s.g
  trace : s'.trace = s.trace
  views : ∀ q, { s'.views q with publisher := (s.views q).publisher } = s.views q

theorem OnlyUnsub.refl (s : GS F E) : OnlyUnsub s s := ⟨rfl, rfl, fun _ => rfl⟩

theorem OnlyUnsub.trans {a b c : GS F E} (h : OnlyUnsub a b) (k : OnlyUnsub b c) : OnlyUnsub a c :=
  ⟨k.g.trans h.g, k.trace.trans h.trace, fun q => by
    have h1 := h.views q
    have h2 := k.views q
    rw [← h1, ← h2]⟩

theorem OnlyUnsub.unsubscribeView (s : GS F E) (q : Nat) : OnlyUnsub s (GS.unsubscribeView q s) := by
  unfold GS.unsubscribeView
  split
  · refine ⟨rfl, rfl, fun r => ?_⟩
    by_cases hr : r = q
    · subst hr; simp [setView]
    · simp [setView, hr]
  · exact .refl s

theorem OnlyUnsub.unsubscribeAll (qs : List Nat) : ∀ s : GS F E, OnlyUnsub s (unsubscribeAll qs s) := by
  induction qs with
  | nil => intro s; exact .refl s
  | cons q qs ih => intro s; exact (OnlyUnsub.unsubscribeView s q).trans (ih _)

/-- a slot asked for the end of a subscription while the views `vs` became `vt` -/
def AskedIn (wi : Wishes) (S ps : List Nat) (vs vt : Nat → TreeView) : Prop :=
  ∃ p ∈ ps, ∃ q ∈ told wi p (vs p) (vt p), q ∈ S

/-- the loop over the views, compared with the loop without slots -/
theorem overViewsU_spec {wi : Wishes} {f : TreeView → Res TreeView Unit} (hl : ∀ w w', (f w).st? = some w' → Later w w') (ps : List Nat) :
    ∀ {s : GS F E}, SubsInv s → ps.Nodup →
      (∀ vt, (overViews (fun _ => f) ps s.views).st? = some vt → ¬ AskedIn wi s.subs ps s.views vt →
        overViewsU wi f ps s = (match overViews (fun _ => f) ps s.views with
          | .ok _ vs => .ok () { s with views := vs }
          | .throw x vs => .throw x { s with views := vs }
          | .ub r => .ub r)) ∧
      (∀ vt, overViews (fun _ => f) ps s.views = .ok () vt → AskedIn wi s.subs ps s.views vt → ∃ r, overViewsU wi f ps s = .ub r) ∧
      (∀ r, overViews (fun _ => f) ps s.views = .ub r → ∃ r', overViewsU wi f ps s = .ub r') := by
  induction ps with
  | nil =>
    intro s hi _
    refine ⟨fun vt _ _ => rfl, ?_, ?_⟩
    · rintro vt - ⟨p, hp, -⟩; simp at hp
    · intro r h; cases h
  | cons p ps ih =>
    intro s hi hn
    obtain ⟨n1, n2⟩ := List.nodup_cons.1 hn
    have hset : ∀ w, (f (s.views p)).st? = some w → SubsInv { s with views := setView s.views p w } := by
      intro w hw
      refine hi.later (s' := { s with views := setView s.views p w }) rfl (fun q => ?_)
      by_cases hq : q = p
      · subst hq; simp only [setView, if_true]; exact hl _ _ hw
      · simp only [setView, if_neg hq]; exact .refl _
    cases hf : f (s.views p) with
    | ub r =>
      simp only [overViews, overViewsU, hf]
      refine ⟨?_, ?_, ?_⟩
      · intro vt h; cases h
      · intro vt h; cases h
      · intro r h; exact ⟨_, rfl⟩
    | throw x w =>
      simp only [overViews, overViewsU, hf]
      refine ⟨?_, ?_, ?_⟩
      · intro vt h hna
        simp only [Res.st?, Option.some.injEq] at h
        subst h
        rw [unsubscribeAll_none _ (hset w (by rw [hf]; rfl))]
        intro q hq hqs
        exact hna ⟨p, by simp, q, by simpa [setView] using hq, hqs⟩
      · intro vt h; cases h
      · intro r h; cases h
    | ok u w =>
      have hi' := hset w (by rw [hf]; rfl)
      obtain ⟨i1, i2, i3⟩ := ih hi' n2
      simp only at i1 i2 i3
      simp only [overViews, overViewsU, hf]
      have hthen : ∀ vt, (overViews (fun _ => f) ps (setView s.views p w)).st? = some vt → vt p = w ∧
          (AskedIn wi s.subs (p :: ps) s.views vt ↔ (∃ q ∈ told wi p (s.views p) w, q ∈ s.subs) ∨
            AskedIn wi s.subs ps (setView s.views p w) vt) := by
        intro vt h
        have hp : vt p = w := by rw [overViews_other n1 h]; simp [setView]
        refine ⟨hp, ?_⟩
        constructor
        · rintro ⟨p', hp', q, hq, hs⟩
          rcases List.mem_cons.1 hp' with rfl | hp2
          · exact Or.inl ⟨q, hp ▸ hq, hs⟩
          · refine Or.inr ⟨p', hp2, q, ?_, hs⟩
            have : p' ≠ p := fun h => n1 (h ▸ hp2)
            simpa [setView, this] using hq
        · rintro (⟨q, hq, hs⟩ | ⟨p', hp', q, hq, hs⟩)
          · exact ⟨p, by simp, q, by rw [hp]; exact hq, hs⟩
          · refine ⟨p', by simp [hp'], q, ?_, hs⟩
            have : p' ≠ p := by rintro rfl; exact n1 hp'
            simpa [setView, this] using hq
      have hnone : (¬ ∃ q ∈ told wi p (s.views p) w, q ∈ s.subs) →
          unsubscribeAll (told wi p (s.views p) w) { s with views := setView s.views p w } = { s with views := setView s.views p w } := by
        intro h
        exact unsubscribeAll_none _ hi' (fun q hq hs => h ⟨q, hq, hs⟩)
      have hsome : (∃ q ∈ told wi p (s.views p) w, q ∈ s.subs) →
          (unsubscribeAll (told wi p (s.views p) w) { s with views := setView s.views p w }).subs ≠ s.subs := by
        rintro ⟨q, hq, hs⟩ he
        have := (unsubscribeAll_mem (told wi p (s.views p) w) hi' q).1 (by rw [he]; exact hs)
        exact this.2 hq
      refine ⟨?_, ?_, ?_⟩
      · intro vt h hna
        rw [(hthen vt h).2] at hna
        push Not at hna
        rw [hnone (by push Not; exact hna.1), if_pos rfl]
        exact i1 vt h hna.2
      · intro vt h ha
        rcases (hthen vt (by rw [h]; rfl)).2.1 ha with ha | ha
        · exact ⟨_, if_neg (hsome ha)⟩
        · by_cases hq : ∃ q ∈ told wi p (s.views p) w, q ∈ s.subs
          · exact ⟨_, if_neg (hsome hq)⟩
          · rw [hnone hq, if_pos rfl]; exact i2 vt h ha
      · intro r h
        by_cases hq : ∃ q ∈ told wi p (s.views p) w, q ∈ s.subs
        · exact ⟨_, if_neg (hsome hq)⟩
        · rw [hnone hq, if_pos rfl]; exact i3 r h

/-- the subscriptions stay consistent -/
theorem overViewsU_inv {wi : Wishes} {f : TreeView → Res TreeView Unit} (hl : ∀ w w', (f w).st? = some w' → Later w w') (ps : List Nat) :
    ∀ {s s' : GS F E}, SubsInv s → (overViewsU wi f ps s).st? = some s' → SubsInv s' := by
  induction ps with
  | nil => intro s s' hi h; simp only [overViewsU, Res.st?, Option.some.injEq] at h; subst h; exact hi
  | cons p ps ih =>
    intro s s' hi h
    have hset : ∀ w, (f (s.views p)).st? = some w → SubsInv { s with views := setView s.views p w } := by
      intro w hw
      refine hi.later (s' := { s with views := setView s.views p w }) rfl (fun q => ?_)
      by_cases hq : q = p
      · subst hq; simp only [setView, if_true]; exact hl _ _ hw
      · simp only [setView, if_neg hq]; exact .refl _
    simp only [overViewsU] at h
    cases hf : f (s.views p) with
    | ub r => rw [hf] at h; cases h
    | throw x w =>
      simp only [hf, Res.st?, Option.some.injEq] at h
      subst h
      exact (hset w (by rw [hf]; rfl)).unsubscribeAll _
    | ok u w =>
      simp only [hf] at h
      split at h
      · exact ih ((hset w (by rw [hf]; rfl)).unsubscribeAll _) h
      · cases h

theorem addView_later {g : G F E} {e : ERec E} (w w' : TreeView) (h : (addEdgeToTreeView g e w).st? = some w') : Later w w' := by
  have hc := addEdgeToTreeViewS_cut (fun _ => none) g e w
  rcases hc with hc | ⟨x, w1, -, h2, -⟩
  · rw [← hc] at h; exact addEdgeToTreeViewS_later h
  · cases h2

theorem rmView_eq (o t : VId) : rmView o t = fun _ => removeEdgeFromTreeView o t := rfl

theorem removeEdgeFromTreeView_later {o t : VId} (w w' : TreeView) (h : (removeEdgeFromTreeView o t w).st? = some w') : Later w w' := by
  have hc := rmViewS_cut (fun _ _ => none) o t 0 w
  rcases hc with hc | ⟨x, w1, -, h2, -⟩
  · exact rmViewS_later (by rw [hc]; exact h)
  · cases h2

/-- a slot asked for the end of a subscription while `s` became `t` -/
def Asked (wi : Wishes) (s t : GS F E) : Prop := AskedIn wi s.subs s.subs s.views t.views

/-- the outcome `rU` with slots against the outcome `r` without, both from `s` -/
structure Against (wi : Wishes) (s : GS F E) (r rU : Res (GS F E) Unit) : Prop where
  same : ∀ t, r.st? = some t → ¬ Asked wi s t → rU = r
  ends : ∀ t, r = .ok () t → Asked wi s t → ∃ x, rU = .ub x
  ub : ∀ x, r = .ub x → ∃ y, rU = .ub y

theorem Against.refl_throw (wi : Wishes) (s : GS F E) (x : Exn) (t : GS F E) : Against wi s (.throw x t) (.throw x t) :=
  ⟨fun _ _ _ => rfl, fun t h => (by cases h), fun t h => (by cases h)⟩

theorem Against.refl_ub (wi : Wishes) (s : GS F E) (x : String) : Against wi s (.ub x) (.ub x) :=
  ⟨fun _ _ _ => rfl, fun t h => (by cases h), fun t h => ⟨_, rfl⟩⟩

theorem not_asked_same {wi : Wishes} {s t : GS F E} (h : ∀ p ∈ s.subs, (t.views p).signals = (s.views p).signals) : ¬ Asked wi s t := by
  rintro ⟨p, hp, q, hq, -⟩
  obtain ⟨k, h1, h2, -⟩ := mem_told.1 hq
  rw [h p hp] at h2
  omega

theorem Against.refl_quiet (wi : Wishes) (s : GS F E) (r : Res (GS F E) Unit)
    (h : ∀ t, r = .ok () t → ∀ p ∈ s.subs, (t.views p).signals = (s.views p).signals) : Against wi s r r :=
  ⟨fun _ _ _ => rfl, fun t ht ha => absurd ha (not_asked_same (h t ht)), fun x hx => ⟨x, hx⟩⟩

/-- two steps after each other -/
theorem asked_split {wi : Wishes} {s s1 t : GS F E} (hs : s1.subs = s.subs) (h1 : ∀ q, (s.views q).signals <+: (s1.views q).signals)
    (h2 : ∀ q, (s1.views q).signals <+: (t.views q).signals) : Asked wi s t ↔ Asked wi s s1 ∨ Asked wi s1 t := by
  constructor
  · rintro ⟨p, hp, q, hq, hqs⟩
    obtain ⟨k, k1, k2, k3⟩ := mem_told.1 hq
    by_cases hk : k ≤ (s1.views p).signals.length
    · refine Or.inl ⟨p, hp, q, mem_told.2 ⟨k, k1, hk, ?_⟩, hqs⟩
      obtain ⟨l, hl⟩ := h2 p
      rw [← hl, List.take_append_of_le_length hk] at k3
      exact k3
    · exact Or.inr ⟨p, hs ▸ hp, q, mem_told.2 ⟨k, by omega, k2, k3⟩, hs ▸ hqs⟩
  · rintro (⟨p, hp, q, hq, hqs⟩ | ⟨p, hp, q, hq, hqs⟩)
    · obtain ⟨k, k1, k2, k3⟩ := mem_told.1 hq
      refine ⟨p, hp, q, mem_told.2 ⟨k, k1, Nat.le_trans k2 (h2 p).length_le, ?_⟩, hqs⟩
      obtain ⟨l, hl⟩ := h2 p
      rw [← hl, List.take_append_of_le_length k2]
      exact k3
    · obtain ⟨k, k1, k2, k3⟩ := mem_told.1 hq
      exact ⟨p, hs ▸ hp, q, mem_told.2 ⟨k, Nat.lt_of_le_of_lt (h1 p).length_le k1, k2, k3⟩, hs ▸ hqs⟩

theorem SubsInv.withG {s : GS F E} (hi : SubsInv s) (g : G F E) : SubsInv { s with g := g } := hi

theorem SubsInv.notify {s : GS F E} (hi : SubsInv s) (ev : Event) : SubsInv (GS.notify ev s) := hi

theorem addEdgeDU_against {wi : Wishes} {o t : VId} {p : E} {s : GS F E} (hi : SubsInv s) :
    Against wi s (addEdgeD o t p s) (addEdgeDU wi o t p s) := by
  unfold addEdgeD addEdgeDU
  cases s.g.findV o with
  | none => exact .refl_ub ..
  | some ro =>
    cases s.g.findV t with
    | none => exact .refl_ub ..
    | some rt =>
      simp only
      cases s.g.edge o t with
      | some _ => exact .refl_throw ..
      | none =>
        simp only
        obtain ⟨i1, i2, i3⟩ := overViewsU_spec (wi := wi)
          (f := addEdgeToTreeView ((s.g.addEdge o t p).1.addEdge t o (EdgeProp.inverse p)).1 (s.g.addEdge o t p).2)
          (fun w w' => addView_later w w') s.subs (hi.withG ((s.g.addEdge o t p).1.addEdge t o (EdgeProp.inverse p)).1) hi.1
        rw [addViews_over]
        simp only at i1 i2 i3
        generalize overViews (fun _ => addEdgeToTreeView ((s.g.addEdge o t p).1.addEdge t o (EdgeProp.inverse p)).1
          (s.g.addEdge o t p).2) s.subs s.views = r at i1 i2 i3 ⊢
        cases r with
        | ok u vt =>
          refine ⟨?_, ?_, fun x h => by cases h⟩
          · intro t' ht hna
            simp only [Res.st?, Option.some.injEq] at ht
            subst ht
            rw [i1 vt rfl hna]
          · intro t' ht ha
            cases ht
            obtain ⟨x, hx⟩ := i2 vt rfl ha
            rw [hx]; exact ⟨_, rfl⟩
        | throw x vt =>
          refine ⟨?_, fun x h => (by cases h), fun x h => (by cases h)⟩
          intro t' ht hna
          simp only [Res.st?, Option.some.injEq] at ht
          subst ht
          rw [i1 vt rfl hna]
        | ub x =>
          refine ⟨fun x h => (by cases h), fun x h => (by cases h), ?_⟩
          intro y _
          obtain ⟨x, hx⟩ := i3 _ rfl
          rw [hx]; exact ⟨_, rfl⟩

theorem addEdgeU_against {wi : Wishes} {o t : FrameId} {p : E} {s : GS F E} (hi : SubsInv s) :
    Against wi s (addEdge o t p s) (addEdgeU wi o t p s) := by
  have hor : ∀ (f : FrameId) (v : Option VId) (s : GS F E), (orCreate f v s).1.subs = s.subs ∧ (orCreate f v s).1.views = s.views := by
    intro f v s; cases v <;> exact ⟨rfl, rfl⟩
  unfold addEdge addEdgeU
  simp only
  have h1 := hor o (s.g.vertexOf o) s
  have h2 := hor t (s.g.vertexOf t) (orCreate o (s.g.vertexOf o) s).1
  have h3 := h2.1.trans h1.1
  have h4 := h2.2.trans h1.2
  have hi' : SubsInv (orCreate t (s.g.vertexOf t) (orCreate o (s.g.vertexOf o) s).1).1 := by
    unfold SubsInv; rw [h3, h4]; exact hi
  have k := addEdgeDU_against (wi := wi) (o := (orCreate o (s.g.vertexOf o) s).2)
    (t := (orCreate t (s.g.vertexOf t) (orCreate o (s.g.vertexOf o) s).1).2) (p := p) hi'
  have ha : ∀ t', Asked wi (orCreate t (s.g.vertexOf t) (orCreate o (s.g.vertexOf o) s).1).1 t' ↔ Asked wi s t' := by
    intro t'; unfold Asked; rw [h3, h4]
  exact ⟨fun t' ht hna => k.same t' ht (fun hh => hna ((ha _).1 hh)), fun t' ht hh => k.ends t' ht ((ha _).2 hh), k.ub⟩

theorem removeEdgeBothU_against {wi : Wishes} {o t : FrameId} {u v : VId} {s : GS F E} (hi : SubsInv s) :
    Against wi s (removeEdgeBoth o t u v s) (removeEdgeBothU wi o t u v s) := by
  unfold removeEdgeBoth removeEdgeBothU
  cases s.g.edge u v with
  | none => exact .refl_throw ..
  | some e1 =>
    cases s.g.edge v u with
    | none => exact .refl_throw ..
    | some e2 =>
      simp only
      cases s.g.removeEdge e1.id with
      | none => exact .refl_ub ..
      | some g1 =>
        simp only
        cases g1.removeEdge e2.id with
        | none => exact .refl_ub ..
        | some g2 =>
          simp only [GS.notify]
          obtain ⟨i1, i2, i3⟩ := overViewsU_spec (wi := wi) (f := removeEdgeFromTreeView u v)
            (fun w w' => removeEdgeFromTreeView_later w w') s.subs
            (show SubsInv ⟨g2, s.subs, s.views, s.trace ++ [(Event.edgeRemoved o t, g1)]⟩ from hi) hi.1
          rw [rmViews_over, rmView_eq]
          simp only at i1 i2 i3
          generalize overViews (fun _ => removeEdgeFromTreeView u v) s.subs s.views = r at i1 i2 i3 ⊢
          cases r with
          | ok u vt =>
            refine ⟨?_, ?_, fun x h => by cases h⟩
            · intro t' ht hna
              simp only [Res.st?, Option.some.injEq] at ht
              subst ht
              rw [i1 vt rfl hna]
            · intro t' ht ha
              cases ht
              exact i2 vt rfl ha
          | throw x vt =>
            refine ⟨?_, fun x h => (by cases h), fun x h => (by cases h)⟩
            intro t' ht hna
            simp only [Res.st?, Option.some.injEq] at ht
            subst ht
            rw [i1 vt rfl hna]
          | ub x =>
            refine ⟨fun x h => (by cases h), fun x h => (by cases h), ?_⟩
            intro y _
            exact i3 _ rfl

theorem removeEdgeBoth_later {o t : FrameId} {u v : VId} {s s' : GS F E} (h : (removeEdgeBoth o t u v s).st? = some s') :
    s'.subs = s.subs ∧ ∀ q, Later (s.views q) (s'.views q) := by
  unfold removeEdgeBoth at h
  split at h
  · split at h
    · cases h
    · simp only at h
      split at h
      · cases h
      · rw [rmViews_over, rmView_eq] at h
        split at h
        · rename_i hr
          simp only [Res.st?, Option.some.injEq] at h; subst h
          have hst := congrArg Res.st? hr
          refine ⟨rfl, ?_⟩
          refine overViews_later (f := fun _ => removeEdgeFromTreeView u v) ?_ hst
          exact fun _ w w' hw => removeEdgeFromTreeView_later w w' hw
        · rename_i hr
          simp only [Res.st?, Option.some.injEq] at h; subst h
          have hst := congrArg Res.st? hr
          refine ⟨rfl, ?_⟩
          refine overViews_later (f := fun _ => removeEdgeFromTreeView u v) ?_ hst
          exact fun _ w w' hw => removeEdgeFromTreeView_later w w' hw
        · cases h
  · simp only [Res.st?, Option.some.injEq] at h; subst h; exact ⟨rfl, fun q => .refl _⟩

theorem removeEdgeD_later {u v : VId} {s s' : GS F E} (h : (removeEdgeD u v s).st? = some s') :
    s'.subs = s.subs ∧ ∀ q, Later (s.views q) (s'.views q) := by
  unfold removeEdgeD at h
  split at h
  · exact removeEdgeBoth_later h
  · cases h

theorem removeEdgeDU_against {wi : Wishes} {u v : VId} {s : GS F E} (hi : SubsInv s) :
    Against wi s (removeEdgeD u v s) (removeEdgeDU wi u v s) := by
  unfold removeEdgeD removeEdgeDU
  cases s.g.findV u with
  | none => exact .refl_ub ..
  | some ro =>
    cases s.g.findV v with
    | none => exact .refl_ub ..
    | some rt => exact removeEdgeBothU_against hi

theorem disconnectLoop_later {v : VId} (n : Nat) : ∀ {s s' : GS F E}, (disconnectLoop v n s).st? = some s' →
    s'.subs = s.subs ∧ ∀ q, Later (s.views q) (s'.views q) := by
  induction n with
  | zero =>
    intro s s' h
    unfold disconnectLoop at h
    split at h
    · simp only [Res.st?, Option.some.injEq] at h; subst h; exact ⟨rfl, fun q => .refl _⟩
    · cases h
  | succ n ih =>
    intro s s' h
    unfold disconnectLoop at h
    split at h
    · simp only [Res.st?, Option.some.injEq] at h; subst h; exact ⟨rfl, fun q => .refl _⟩
    · simp only at h
      split at h
      · rename_i s1 hr
        obtain ⟨a1, a2⟩ := removeEdgeD_later (by rw [hr]; rfl)
        obtain ⟨b1, b2⟩ := ih h
        exact ⟨b1.trans a1, fun q => (a2 q).trans (b2 q)⟩
      · rename_i s1 hr
        simp only [Res.st?, Option.some.injEq] at h; subst h
        exact removeEdgeD_later (by rw [hr]; rfl)
      · cases h

theorem disconnectLoopU_against {wi : Wishes} {v : VId} (n : Nat) : ∀ {s : GS F E}, SubsInv s →
    Against wi s (disconnectLoop v n s) (disconnectLoopU wi v n s) := by
  induction n with
  | zero =>
    intro s hi
    unfold disconnectLoop disconnectLoopU
    cases s.g.outEdges v with
    | nil => exact .refl_quiet _ _ _ (fun t h => by cases h; exact fun _ _ => rfl)
    | cons e es => exact .refl_ub ..
  | succ n ih =>
    intro s hi
    unfold disconnectLoop disconnectLoopU
    cases s.g.outEdges v with
    | nil => exact .refl_quiet _ _ _ (fun t h => by cases h; exact fun _ _ => rfl)
    | cons e es =>
      simp only
      have k := removeEdgeDU_against (wi := wi) (u := v) (v := e.tgt) hi
      cases hr : removeEdgeD v e.tgt s with
      | ub x =>
        obtain ⟨y, hy⟩ := k.ub x hr
        rw [hy]
        exact ⟨fun t h => (by cases h), fun t h => (by cases h), fun _ _ => ⟨_, rfl⟩⟩
      | throw x s1 =>
        refine ⟨?_, fun t h => (by cases h), fun t h => (by cases h)⟩
        intro t ht hna
        simp only [Res.st?, Option.some.injEq] at ht
        subst ht
        rw [k.same s1 (by rw [hr]; rfl) hna, hr]
      | ok a s1 =>
        obtain ⟨l1, l2⟩ := removeEdgeD_later (s' := s1) (by rw [hr]; rfl)
        have hi1 : SubsInv s1 := hi.later l1 l2
        have k1 := ih hi1
        have hsp : ∀ t, (disconnectLoop v n s1).st? = some t → (Asked wi s t ↔ Asked wi s s1 ∨ Asked wi s1 t) := by
          intro t ht
          exact asked_split l1 (fun q => (l2 q).1) (fun q => ((disconnectLoop_later n ht).2 q).1)
        by_cases ha : Asked wi s s1
        · obtain ⟨y, hy⟩ := k.ends s1 hr ha
          rw [hy]
          refine ⟨?_, fun _ _ _ => ⟨_, rfl⟩, fun _ _ => ⟨_, rfl⟩⟩
          intro t ht hna
          exact absurd ((hsp t ht).2 (Or.inl ha)) hna
        · rw [k.same s1 (by rw [hr]; rfl) ha, hr]
          simp only
          refine ⟨?_, ?_, k1.ub⟩
          · intro t ht hna
            exact k1.same t ht (fun h => hna ((hsp t ht).2 (Or.inr h)))
          · intro t ht h
            refine k1.ends t ht ?_
            exact ((hsp t (by rw [ht]; rfl)).1 h).resolve_left ha

/-- one call with slots against the call without -/
theorem execU_against {wi : Wishes} {c : Cmd F E} (hc : ∀ f k p, c ≠ .getTree f k p) {s : GS F E} (hi : SubsInv s) :
    Against wi s (exec c s) (execU wi c s) := by
  cases c with
  | getTree f k p => exact absurd rfl (hc f k p)
  | addEdge o t p => exact addEdgeU_against hi
  | removeEdge o t =>
    simp only [exec, execU, removeEdge, removeEdgeU]
    cases s.g.vertexOf o with
    | none => exact .refl_throw ..
    | some u =>
      cases s.g.vertexOf t with
      | none => exact .refl_throw ..
      | some v => exact removeEdgeBothU_against hi
  | disconnectFrame f =>
    simp only [exec, execU, disconnectFrame, disconnectFrameU]
    cases s.g.vertexOf f with
    | none => exact .refl_throw ..
    | some u => exact disconnectLoopU_against _ hi
  | addFrame f =>
    refine .refl_quiet _ _ _ ?_
    intro t h p _
    simp only [exec, addFrame] at h
    split at h <;> (simp only [discard] at h; cases h)
    rfl
  | emplaceFrame f x =>
    refine .refl_quiet _ _ _ ?_
    intro t h p _
    simp only [exec, emplaceFrame] at h
    split at h <;> (simp only [discard] at h; cases h)
    rfl
  | removeFrame f =>
    refine .refl_quiet _ _ _ ?_
    intro t h p _
    simp only [exec, removeFrame] at h
    split at h
    · cases h
    · split at h
      · cases h
      · cases h; rfl
  | setEdge o t x =>
    refine .refl_quiet _ _ _ ?_
    intro t h p _
    simp only [exec, setEdgeProperty] at h
    split at h
    · cases h
    · split at h
      · cases h
      · split at h
        · cases h
        · split at h
          · cases h
          · cases h; rfl
  | unsubscribeView q =>
    refine .refl_quiet _ _ _ ?_
    intro t h p _
    simp only [exec] at h
    cases h
    have := congrArg TreeView.signals ((OnlyUnsub.unsubscribeView s q).views p)
    exact this

/-- a call with slots keeps the subscriptions consistent -/
theorem execU_subsInv {wi : Wishes} {c : Cmd F E} {s s' : GS F E} (hi : SubsInv s) (h : (execU wi c s).st? = some s') : SubsInv s' := by
  have hboth : ∀ {o t : FrameId} {u v : VId} {s s' : GS F E}, SubsInv s → (removeEdgeBothU wi o t u v s).st? = some s' → SubsInv s' := by
    intro o t u v s s' hi h
    unfold removeEdgeBothU at h
    split at h
    · split at h
      · cases h
      · simp only at h
        split at h
        · cases h
        · refine overViewsU_inv ?_ _ ?_ h
          · exact fun w w' => removeEdgeFromTreeView_later w w'
          · exact hi
    · simp only [Res.st?, Option.some.injEq] at h; subst h; exact hi
  cases c with
  | addEdge o t p =>
    simp only [execU, addEdgeU] at h
    have hor : ∀ (f : FrameId) (v : Option VId) {s : GS F E}, SubsInv s → SubsInv (orCreate f v s).1 := by
      intro f v s hi; cases v <;> exact hi
    have hi' := hor t (s.g.vertexOf t) (hor o (s.g.vertexOf o) hi)
    generalize (orCreate t (s.g.vertexOf t) (orCreate o (s.g.vertexOf o) s).1).1 = s2 at h hi'
    unfold addEdgeDU at h
    split at h
    · split at h
      · simp only [Res.st?, Option.some.injEq] at h; subst h; exact hi'
      · simp only at h
        split at h
        · rename_i s1 hr
          simp only [Res.st?, Option.some.injEq] at h; subst h
          have hst := congrArg Res.st? hr
          have k : SubsInv s1 := by
            refine overViewsU_inv ?_ _ ?_ hst
            · exact fun w w' => addView_later w w'
            · exact hi'
          exact k
        · rename_i x s1 hr
          simp only [Res.st?, Option.some.injEq] at h; subst h
          have hst := congrArg Res.st? hr
          have k : SubsInv s1 := by
            refine overViewsU_inv ?_ _ ?_ hst
            · exact fun w w' => addView_later w w'
            · exact hi'
          exact k
        · cases h
    · cases h
  | removeEdge o t =>
    simp only [execU, removeEdgeU] at h
    split at h
    · simp only [Res.st?, Option.some.injEq] at h; subst h; exact hi
    · split at h
      · simp only [Res.st?, Option.some.injEq] at h; subst h; exact hi
      · exact hboth hi h
  | disconnectFrame f =>
    simp only [execU, disconnectFrameU] at h
    split at h
    · simp only [Res.st?, Option.some.injEq] at h; subst h; exact hi
    · have hl : ∀ (n : Nat) (v : VId) {s s' : GS F E}, SubsInv s → (disconnectLoopU wi v n s).st? = some s' → SubsInv s' := by
        intro n v
        induction n with
        | zero =>
          intro s s' hi h
          unfold disconnectLoopU at h
          split at h
          · simp only [Res.st?, Option.some.injEq] at h; subst h; exact hi
          · cases h
        | succ n ih =>
          intro s s' hi h
          have hd : ∀ {u v : VId} {s' : GS F E}, (removeEdgeDU wi u v s).st? = some s' → SubsInv s' := by
            intro u v s' h
            unfold removeEdgeDU at h
            split at h
            · exact hboth hi h
            · cases h
          unfold disconnectLoopU at h
          split at h
          · simp only [Res.st?, Option.some.injEq] at h; subst h; exact hi
          · simp only at h
            split at h
            · rename_i s1 hr; exact ih (hd (by rw [hr]; rfl)) h
            · rename_i s1 hr
              simp only [Res.st?, Option.some.injEq] at h; subst h
              exact hd (by rw [hr]; rfl)
            · cases h
      exact hl _ _ hi h
  | getTree f k p =>
    simp only [execU, getTreeU] at h
    split at h
    · simp only [Res.st?, Option.some.injEq] at h; subst h; exact hi
    · rename_i v _
      have hset : ∀ w, (getTreeInto s.g v (s.views p)).st? = some w → SubsInv { s with views := setView s.views p w } := by
        intro w hw
        refine ⟨hi.1, fun q => ?_⟩
        by_cases hq : q = p
        · subst hq; simp only [setView, if_true, getTreeInto_publisher hw]; exact hi.2 q
        · simp only [setView, if_neg hq]; exact hi.2 q
      split at h
      · cases h
      · rename_i w hx
        simp only [Res.st?, Option.some.injEq] at h; subst h
        exact (hset w (by rw [hx]; rfl)).unsubscribeAll _
      · rename_i w hx
        have h1 := (hset w (by rw [hx]; rfl)).unsubscribeAll (told wi p (s.views p) w)
        split at h
        · unfold subscribeTreeView at h
          split at h
          · cases h
          · rename_i hnp
            simp only [Res.st?, Option.some.injEq] at h; subst h
            refine ⟨?_, fun q => ?_⟩
            · simp only [List.nodup_append]
              refine ⟨h1.1, by simp, fun a ha b hb => ?_⟩
              rintro rfl; rw [List.mem_singleton] at hb; subst hb
              exact hnp ((h1.2 _).1 ha)
            · simp only [List.mem_append, List.mem_singleton]
              by_cases hq : q = p
              · subst hq; simp [setView]
              · simp only [setView, hq, or_false]; exact h1.2 q
        · simp only [Res.st?, Option.some.injEq] at h; subst h; exact h1
  | addFrame f => exact exec_subsInv (c := .addFrame f) hi h
  | emplaceFrame f p => exact exec_subsInv (c := .emplaceFrame f p) hi h
  | removeFrame f => exact exec_subsInv (c := .removeFrame f) hi h
  | setEdge o t p => exact exec_subsInv (c := .setEdge o t p) hi h
  | unsubscribeView p => exact exec_subsInv (c := .unsubscribeView p) hi h

theorem runU_subsInv {wi : Wishes} {calls : List (Cmd F E)} : ∀ {s s' : GS F E}, SubsInv s → runU wi calls s = some s' → SubsInv s' := by
  induction calls with
  | nil => intro s s' hi h; simp only [runU, Option.some.injEq] at h; subst h; exact hi
  | cons c cs ih =>
    intro s s' hi h
    simp only [runU] at h
    split at h
    · rename_i s1 hr; exact ih (execU_subsInv hi (by rw [hr]; rfl)) h
    · rename_i s1 hr; exact ih (execU_subsInv hi (by rw [hr]; rfl)) h
    · cases h

end GS
end Verif
