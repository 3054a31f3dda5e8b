import Verif.Lemmas.Queue
/-! # The event queue and connections -/

set_option linter.unusedSimpArgs false

namespace Verif
namespace Queue

/-- connected after events of these kinds? -/
def tagsAfter : Bool → List Tag → Bool
  | b, [] => b
  | _, .added :: l => tagsAfter true l
  | _, .removed :: l => tagsAfter false l
  | b, .modified :: l => tagsAfter b l

theorem connAfter_eq (a b : FrameId) (b0 : Bool) (l : List Event) :
    connAfter a b b0 l = tagsAfter b0 (l.filterMap (ctag a b)) := by
  induction l generalizing b0 with
  | nil => rfl
  | cons e l ih =>
    cases e with
    | edgeAdded o t i =>
      simp only [connAfter, ih, List.filterMap_cons, ctag]
      split <;> rename_i h <;> simp [h, tagsAfter]
    | edgeModified o t i j =>
      simp only [connAfter, ih, List.filterMap_cons, ctag]
      split
      · rfl
      · rename_i h; split at h
        · simp at h; subst h; rfl
        · simp at h
    | edgeRemoved o t =>
      simp only [connAfter, ih, List.filterMap_cons, ctag]
      split <;> rename_i h <;> simp [h, tagsAfter]
    | _ => simp [connAfter, ih, List.filterMap_cons, ctag]

theorem connAfter_append (a b : FrameId) (b0 : Bool) (l l' : List Event) :
    connAfter a b b0 (l ++ l') = connAfter a b (connAfter a b b0 l) l' := by
  have : ∀ (x y : List Tag) (b0 : Bool), tagsAfter b0 (x ++ y) = tagsAfter (tagsAfter b0 x) y := by
    intro x y
    induction x with
    | nil => intro b0; rfl
    | cons t x ih => intro b0; cases t <;> simp [tagsAfter, ih]
  simp [connAfter_eq, this]

theorem removals_eq (a b : FrameId) (l : List Event) : removals a b l = (l.filterMap (ctag a b)).count .removed := by
  induction l with
  | nil => rfl
  | cons e l ih =>
    cases e with
    | edgeAdded o t i => simp only [removals, ih, List.filterMap_cons, ctag]; by_cases h : isConn a b o t <;> simp [h]
    | edgeModified o t i j => simp only [removals, ih, List.filterMap_cons, ctag]; by_cases h : isConn a b o t <;> simp [h]
    | edgeRemoved o t =>
      simp only [removals, ih, List.filterMap_cons, ctag]
      by_cases h : isConn a b o t <;> simp [h]; omega
    | _ => simp [removals, ih, List.filterMap_cons, ctag]

theorem removals_append (a b : FrameId) (l l' : List Event) : removals a b (l ++ l') = removals a b l + removals a b l' := by
  simp [removals_eq]

/-- what is queued about a connection that existed (`b0`) at the last flush, exists now (`b1`) and was removed `r` times -/
def CShape (b0 b1 : Bool) (r : Nat) (l : List Tag) : Prop :=
  match b0, b1 with
  | false, false => l = []
  | false, true => l = [.added] ∨ l = [.added, .modified]
  | true, false => (r = 1 ∧ l = [.removed]) ∨ (2 ≤ r ∧ l = [])
  | true, true => (r = 0 ∧ (l = [] ∨ l = [.modified])) ∨
      (r = 1 ∧ (l = [.removed, .added] ∨ l = [.removed, .added, .modified])) ∨
      (2 ≤ r ∧ (l = [.added] ∨ l = [.added, .modified]))

/-- the observer accepts an event about the connection -/
def caccept (a b : FrameId) (b1 : Bool) (e : Event) : Prop :=
  ∀ t, ctag a b e = some t → (b1 = true ↔ t ≠ .added)

theorem CShape.insert {a b : FrameId} {b0 b1 : Bool} {r : Nat} {l : List Event} (h : CShape b0 b1 r (l.filterMap (ctag a b)))
    {e : Event} (he : caccept a b b1 e) :
    CShape b0 (connAfter a b b1 [e]) (r + removals a b [e]) ((Queue.insert e l).filterMap (ctag a b)) := by
  rw [ctags_insert, connAfter_eq, removals_eq]
  cases ht : ctag a b e with
  | none => simpa [List.filterMap_cons, ht, tagsAfter] using h
  | some t =>
    have hb := he t ht
    generalize l.filterMap (ctag a b) = L at *
    simp only [List.filterMap_cons, ht, List.filterMap_nil]
    cases t
    · have : b1 = false := by cases b1; rfl; simp at hb
      subst this
      cases b0 <;> simp only [CShape] at h <;> simp only [tagsAfter, CShape]
      · subst h; simp
      · rcases h with ⟨rfl, rfl⟩ | ⟨hr, rfl⟩
        · exact .inr (.inl (by simp))
        · exact .inr (.inr (by simpa using hr))
    · have : b1 = true := hb.2 (by simp)
      subst this
      cases b0 <;> simp only [CShape] at h <;> simp only [tagsAfter, CShape]
      · rcases h with rfl | rfl <;> simp
      · rcases h with ⟨rfl, rfl | rfl⟩ | ⟨rfl, rfl | rfl⟩ | ⟨hr, rfl | rfl⟩
        · left; simp
        · left; simp
        · right; left; simp
        · right; left; simp
        · right; right; simpa using hr
        · right; right; simpa using hr
    · have : b1 = true := hb.2 (by simp)
      subst this
      cases b0 <;> simp only [CShape] at h <;> simp only [tagsAfter, CShape]
      · rcases h with rfl | rfl <;> simp
      · rcases h with ⟨rfl, rfl | rfl⟩ | ⟨rfl, rfl | rfl⟩ | ⟨hr, rfl | rfl⟩
        · left; simp
        · left; simp
        · right; simp
        · right; simp
        · right; simp; omega
        · right; simp; omega

theorem apply_conn {m m' : Mirror} (hp : m.Proper) {e : Event} (h : m.apply e = some m') (a b : FrameId) :
    caccept a b (decide ((a, b) ∈ m.conns)) e ∧ connAfter a b (decide ((a, b) ∈ m.conns)) [e] = decide ((a, b) ∈ m'.conns) := by
  have hsym : ∀ {o t}, isConn a b o t → ((o, t) ∈ m.conns ↔ (a, b) ∈ m.conns) := by
    intro o t hc
    rcases hc with ⟨rfl, rfl⟩ | ⟨rfl, rfl⟩
    · rfl
    · exact ⟨hp.symm _ _, hp.symm _ _⟩
  cases e <;> simp only [Mirror.apply] at h
  case edgeAdded o t i =>
    split at h
    · rename_i hc
      obtain rfl := Option.some.inj h
      constructor
      · intro t' ht'
        simp only [ctag] at ht'
        split at ht'
        · rename_i hi; simp at ht'; subst ht'
          simp [← hsym hi, hc.2.2.2]
        · simp at ht'
      · simp only [connAfter, Finset.mem_insert, Prod.mk.injEq]
        by_cases hi : isConn a b o t
        · rcases hi with ⟨rfl, rfl⟩ | ⟨rfl, rfl⟩ <;> simp [isConn]
        · simp only [hi, if_false]
          simp only [isConn, not_or] at hi
          have : ((a, b) ∈ m.conns) = ((a = o ∧ b = t) ∨ (a = t ∧ b = o) ∨ (a, b) ∈ m.conns) := by
            apply propext; constructor
            · intro h; exact .inr (.inr h)
            · rintro (⟨rfl, rfl⟩ | ⟨rfl, rfl⟩ | h)
              · simp at hi
              · simp at hi
              · exact h
          simp only [← this]
    · simp at h
  case edgeModified o t i j =>
    split at h
    · rename_i hc
      obtain rfl := Option.some.inj h
      refine ⟨?_, by simp [connAfter]⟩
      intro t' ht'
      simp only [ctag] at ht'
      split at ht'
      · rename_i hi; simp at ht'; subst ht'
        simp [← hsym hi, hc]
      · simp at ht'
    · simp at h
  case edgeRemoved o t =>
    split at h
    · rename_i hc
      obtain rfl := Option.some.inj h
      constructor
      · intro t' ht'
        simp only [ctag] at ht'
        split at ht'
        · rename_i hi; simp at ht'; subst ht'
          simp [← hsym hi, hc]
        · simp at ht'
      · simp only [connAfter, Finset.mem_erase, ne_eq, Prod.mk.injEq]
        by_cases hi : isConn a b o t
        · rcases hi with ⟨rfl, rfl⟩ | ⟨rfl, rfl⟩ <;> simp [isConn]
        · simp only [hi, if_false]
          simp only [isConn, not_or] at hi
          have : ((a, b) ∈ m.conns) = (¬(a = t ∧ b = o) ∧ ¬(a = o ∧ b = t) ∧ (a, b) ∈ m.conns) := by
            apply propext; constructor
            · intro h; refine ⟨?_, ?_, h⟩
              · rintro ⟨rfl, rfl⟩; simp at hi
              · rintro ⟨rfl, rfl⟩; simp at hi
            · rintro ⟨_, _, h⟩; exact h
          simp only [← this]
    · simp at h
  all_goals
    have hm : m'.conns = m.conns := by
      first
      | (split at h <;> first | (obtain rfl := Option.some.inj h; rfl) | simp at h)
      | (obtain rfl := Option.some.inj h; rfl)
    exact ⟨by intro t ht; simp [ctag] at ht, by simp [connAfter, hm]⟩

end Queue

theorem Mirror.Proper.apply {m m' : Mirror} (hp : m.Proper) {e : Event} (h : m.apply e = some m') : m'.Proper := by
  cases e <;> simp only [Mirror.apply] at h
  case frameAdded f =>
    split at h
    · simp at h
    · obtain rfl := Option.some.inj h
      exact ⟨hp.symm, hp.ne, fun a b hab => ⟨by simp [(hp.known a b hab).1], by simp [(hp.known a b hab).2]⟩⟩
  case frameRemoved f =>
    split at h
    · rename_i hc
      obtain rfl := Option.some.inj h
      refine ⟨hp.symm, hp.ne, fun a b hab => ?_⟩
      have := hc.2 _ hab
      simp only [Finset.mem_erase]
      exact ⟨⟨this.1, (hp.known a b hab).1⟩, this.2, (hp.known a b hab).2⟩
    · simp at h
  case edgeAdded o t i =>
    split at h
    · rename_i hc
      obtain rfl := Option.some.inj h
      obtain ⟨h1, h2, h3, h4⟩ := hc
      refine ⟨?_, ?_, ?_⟩
      · intro a b; simp only [Finset.mem_insert, Prod.mk.injEq]
        rintro (⟨rfl, rfl⟩ | ⟨rfl, rfl⟩ | hab)
        · simp
        · simp
        · exact .inr (.inr (hp.symm _ _ hab))
      · intro a b; simp only [Finset.mem_insert, Prod.mk.injEq]
        rintro (⟨rfl, rfl⟩ | ⟨rfl, rfl⟩ | hab)
        · exact h3
        · exact h3.symm
        · exact hp.ne _ _ hab
      · intro a b; simp only [Finset.mem_insert, Prod.mk.injEq]
        rintro (⟨rfl, rfl⟩ | ⟨rfl, rfl⟩ | hab)
        · exact ⟨h1, h2⟩
        · exact ⟨h2, h1⟩
        · exact hp.known _ _ hab
    · simp at h
  case edgeModified =>
    split at h
    · obtain rfl := Option.some.inj h; exact hp
    · simp at h
  case edgeRemoved o t =>
    split at h
    · obtain rfl := Option.some.inj h
      refine ⟨?_, ?_, ?_⟩
      · intro a b; simp only [Finset.mem_erase, ne_eq, Prod.mk.injEq]
        rintro ⟨h1, h2, h3⟩
        exact ⟨fun h => h2 ⟨h.2, h.1⟩, fun h => h1 ⟨h.2, h.1⟩, hp.symm _ _ h3⟩
      · intro a b hab; exact hp.ne _ _ (Finset.mem_of_mem_erase (Finset.mem_of_mem_erase hab))
      · intro a b hab; exact hp.known _ _ (Finset.mem_of_mem_erase (Finset.mem_of_mem_erase hab))
    · simp at h
  all_goals obtain rfl := Option.some.inj h; exact hp

theorem Mirror.Proper.empty : Mirror.empty.Proper := ⟨by simp [Mirror.empty], by simp [Mirror.empty], by simp [Mirror.empty]⟩

theorem Mirror.Proper.replay {m : Mirror} (hp : m.Proper) {es : List Event} {m' : Mirror} (h : m.replay es = some m') :
    m'.Proper := by
  induction es generalizing m with
  | nil => obtain rfl := Option.some.inj h; exact hp
  | cons e es ih =>
    simp only [Mirror.replay] at h
    cases h1 : m.apply e with
    | none => simp [h1] at h
    | some m1 => rw [h1] at h; exact ih (hp.apply h1) h

theorem Mirror.replay_snoc {m m' : Mirror} {es : List Event} {e : Event} :
    m.replay (es ++ [e]) = some m' ↔ ∃ m1, m.replay es = some m1 ∧ m1.apply e = some m' := by
  rw [Mirror.replay_append]
  cases h : m.replay es with
  | none => simp
  | some m1 => simp [Mirror.replay]

namespace Queue

theorem frame_shape {m m' : Mirror} {es : List Event} (h : m.replay es = some m') (f : FrameId) :
    FShape (decide (f ∈ m.frames)) (decide (f ∈ m'.frames)) ((queued [] es).filterMap (ftag f)) ∧
    frameAfter f (decide (f ∈ m.frames)) es = decide (f ∈ m'.frames) := by
  induction es using List.reverseRecOn generalizing m' with
  | nil =>
    obtain rfl := Option.some.inj h
    refine ⟨?_, rfl⟩
    by_cases hf : f ∈ m.frames <;> simp [hf, FShape]
  | append_singleton es e ih =>
    obtain ⟨m1, h1, h2⟩ := Mirror.replay_snoc.1 h
    obtain ⟨h3, h4⟩ := apply_frame h2 f
    obtain ⟨h5, h6⟩ := ih h1
    rw [queued_snoc, frameAfter_append, h6, ← h4]
    exact ⟨h5.insert h3, rfl⟩

theorem conn_shape {m m' : Mirror} (hp : m.Proper) {es : List Event} (h : m.replay es = some m') (a b : FrameId) :
    CShape (decide ((a, b) ∈ m.conns)) (decide ((a, b) ∈ m'.conns)) (removals a b es) ((queued [] es).filterMap (ctag a b)) ∧
    connAfter a b (decide ((a, b) ∈ m.conns)) es = decide ((a, b) ∈ m'.conns) := by
  induction es using List.reverseRecOn generalizing m' with
  | nil =>
    obtain rfl := Option.some.inj h
    refine ⟨?_, rfl⟩
    by_cases hf : (a, b) ∈ m.conns <;> simp [hf, CShape, removals]
  | append_singleton es e ih =>
    obtain ⟨m1, h1, h2⟩ := Mirror.replay_snoc.1 h
    obtain ⟨h3, h4⟩ := apply_conn (hp.replay h1) h2 a b
    obtain ⟨h5, h6⟩ := ih h1
    rw [queued_snoc, connAfter_append, h6, ← h4, removals_append]
    exact ⟨h5.insert h3, rfl⟩

end Queue
end Verif
