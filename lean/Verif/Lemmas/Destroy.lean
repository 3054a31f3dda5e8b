import Verif.Lemmas.Handlers
/-!
# Lemmas about the destructor of a publisher
-/
set_option linter.unusedSectionVars false
set_option linter.unusedSimpArgs false

namespace Verif
open PW

/-- a publisher whose subscribers all point to it -/
structure OwnSubs (p : PubId) (l : List SubId) (w : PW) : Prop where
  subs : (w.pubs p).subscribers = l
  nodup : l.Nodup
  ptr : ∀ s ∈ l, w.ptr s = some p
  alive : ∀ s ∈ l, s ∉ w.deadSubs
  inside : (w.pubs p).insideNotify = false
  pubAlive : p ∉ w.deadPubs

theorem unsub_last (env : PEnv) (d : SubId → Event → PW → Res PW Unit) {p : PubId} {l : List SubId} {s : SubId} {w : PW}
    (h : OwnSubs p (l ++ [s]) w) :
    ∃ w', subUnsubscribe env d s w = .ok () w' ∧ (w'.pubs p).subscribers = l ∧ (w'.pubs p).insideNotify = false ∧
      w'.ptr = (fun t => if t = s then none else w.ptr t) ∧ w'.deadSubs = w.deadSubs ∧ w'.deadPubs = w.deadPubs ∧
      w'.log = w.log := by
  unfold subUnsubscribe
  rw [if_neg (h.alive s (by simp)), h.ptr s (by simp)]
  have : pubUnsubscribe env d p s false w = .ok () (w.setPub p (leave s (w.pubs p))) := by
    simp [pubUnsubscribe, h.pubAlive]
  simp only [this]
  refine ⟨_, rfl, ?_, ?_, rfl, rfl, rfl, rfl⟩
  · have hx := unsub_eq (x := w.pubs p) s (by rw [h.subs]; exact h.nodup) h.inside
    simp only [setPtr, setPub, if_true]
    rw [hx.1, h.subs]
    have hs : s ∉ l := by
      have := h.nodup; rw [List.nodup_append] at this
      intro hm; exact this.2.2 s hm s (by simp) rfl
    rw [List.filter_append]
    have : l.filter (fun t => !decide (t = s)) = l := List.filter_eq_self.2 (fun t ht => by
      have : t ≠ s := fun e => hs (e ▸ ht)
      simp [this])
    simp [this]
  · have hx := unsub_eq (x := w.pubs p) s (by rw [h.subs]; exact h.nodup) h.inside
    simp only [setPtr, setPub, if_true]; exact hx.2.1

/-- an odd number of subscribers: `pop_back` of an empty vector -/
theorem destroyLoop_odd (env : PEnv) (d : SubId → Event → PW → Res PW Unit) {p : PubId} (k : Nat) {l : List SubId} {w : PW}
    (h : OwnSubs p l w) (hl : l.length = 2 * k + 1) (n : Nat) (hn : l.length ≤ n) : ∃ r, destroyLoop env d p n w = .ub r := by
  induction k generalizing l w n with
  | zero =>
    obtain ⟨s, rfl⟩ := List.length_eq_one_iff.1 hl
    obtain ⟨n, rfl⟩ : ∃ m, n = m + 1 := ⟨n - 1, by simp at hn; omega⟩
    obtain ⟨w', e1, h1, _⟩ := unsub_last env d (l := []) h
    refine ⟨"~GraphEventPublisher: pop_back of an empty vector", ?_⟩
    unfold destroyLoop
    rw [h.subs]
    simp only [List.getLast?_singleton, e1, h1, if_true]
  | succ k ih =>
    have hne : l ≠ [] := by rintro rfl; simp at hl
    obtain ⟨l1, s, rfl⟩ := (List.eq_nil_or_concat l).resolve_left hne
    have hne1 : l1 ≠ [] := by rintro rfl; simp at hl
    obtain ⟨l2, t, rfl⟩ := (List.eq_nil_or_concat l1).resolve_left hne1
    simp only [List.concat_eq_append] at h hl hn ⊢
    obtain ⟨n, rfl⟩ : ∃ m, n = m + 1 := ⟨n - 1, by simp at hn; omega⟩
    obtain ⟨w', e1, h1, h2, h3, h4, h5, _⟩ := unsub_last env d h
    unfold destroyLoop
    rw [h.subs]
    simp only [List.getLast?_append, List.getLast?_singleton, Option.some_or, e1, h1]
    rw [if_neg (by simp)]
    refine ih (l := l2) ⟨by simp [setPub, h1], ?_, ?_, ?_, by simp [setPub, h2], by simpa [setPub, h5] using h.pubAlive⟩
      (by simp at hl; omega) n (by simp at hn; omega)
    · have := h.nodup; rw [List.nodup_append] at this
      have := this.1; rw [List.nodup_append] at this; exact this.1
    · intro x hx
      have hxs : x ≠ s := by
        have := h.nodup; rw [List.nodup_append] at this
        exact fun e => this.2.2 x (by simp [hx]) s (by simp) e
      simp only [setPub, h3, hxs, if_false]
      exact h.ptr x (by simp [hx])
    · intro x hx; simpa [setPub, h4] using h.alive x (by simp [hx])

/-- an even number of subscribers: every second one is forgotten without being told -/
theorem destroyLoop_even (env : PEnv) (d : SubId → Event → PW → Res PW Unit) {p : PubId} (k : Nat) {l : List SubId} {w : PW}
    (h : OwnSubs p l w) (hl : l.length = 2 * k) (n : Nat) (hn : l.length ≤ n) : ∃ w', destroyLoop env d p n w = .ok () w' ∧
      (∀ i s, l[i]? = some s → w'.ptr s = if i % 2 = 1 then none else some p) ∧ (∀ s, s ∉ l → w'.ptr s = w.ptr s) ∧
      w'.deadPubs = w.deadPubs ∧ w'.deadSubs = w.deadSubs := by
  induction k generalizing l w n with
  | zero =>
    have : l = [] := List.length_eq_zero_iff.1 (by omega)
    subst this
    refine ⟨w, ?_, by simp, by simp, rfl, rfl⟩
    unfold destroyLoop; rw [h.subs]; rfl
  | succ k ih =>
    have hne : l ≠ [] := by rintro rfl; simp at hl
    obtain ⟨l1, s, rfl⟩ := (List.eq_nil_or_concat l).resolve_left hne
    have hne1 : l1 ≠ [] := by rintro rfl; simp at hl; omega
    obtain ⟨l2, t, rfl⟩ := (List.eq_nil_or_concat l1).resolve_left hne1
    simp only [List.concat_eq_append] at h hl hn ⊢
    obtain ⟨n, rfl⟩ : ∃ m, n = m + 1 := ⟨n - 1, by simp at hn; omega⟩
    obtain ⟨w', e1, h1, h2, h3, h4, h5, _⟩ := unsub_last env d h
    have hnd := h.nodup
    rw [List.nodup_append, List.nodup_append] at hnd
    have hl2 : l2.length = 2 * k := by simp at hl; omega
    obtain ⟨w2, g1, g2, g3, g4, g5⟩ := ih (l := l2) (w := w'.setPub p { w'.pubs p with subscribers := l2 })
      ⟨by simp [setPub], hnd.1.1, (by
        intro x hx
        have hxs : x ≠ s := fun e => hnd.2.2 x (by simp [hx]) s (by simp) e
        simp only [setPub, h3, hxs, if_false]
        exact h.ptr x (by simp [hx])), (by intro x hx; simpa [setPub, h4] using h.alive x (by simp [hx])), by simp [setPub, h2],
        by simpa [setPub, h5] using h.pubAlive⟩ hl2 n (by simp at hn; omega)
    refine ⟨w2, ?_, ?_, ?_, by rw [g4]; exact h5, by rw [g5]; exact h4⟩
    · unfold destroyLoop
      rw [h.subs]
      simp only [List.getLast?_append, List.getLast?_singleton, Option.some_or, e1, h1]
      rw [if_neg (by simp), List.dropLast_concat]
      exact g1
    · intro i x hi
      by_cases hi2 : i < l2.length
      · rw [List.append_assoc, List.getElem?_append_left hi2] at hi
        exact g2 i x hi
      · rw [List.append_assoc, List.getElem?_append_right (by omega), List.singleton_append] at hi
        have hts : t ≠ s := fun e => hnd.2.2 t (by simp) s (by simp) e
        rcases Nat.lt_or_ge (i - l2.length) 1 with h0 | h0
        · have : i = l2.length := by omega
          subst this
          simp at hi; subst hi
          have htl : t ∉ l2 := fun hm => hnd.1.2.2 t hm t (by simp) rfl
          rw [g3 t htl, hl2]
          simp only [setPub, h3, hts, if_false]
          rw [if_neg (by omega)]
          exact h.ptr t (by simp)
        · have : i - l2.length = 1 := by
            by_contra hne
            have : ([t, s] : List SubId)[i - l2.length]? = none := by simp; omega
            rw [this] at hi; cases hi
          rw [this] at hi
          simp at hi; subst hi
          have hsl : s ∉ l2 := fun hm => hnd.2.2 s (by simp [hm]) s (by simp) rfl
          rw [g3 s hsl]
          simp only [setPub, h3, if_true]
          rw [if_pos (by omega)]
    · intro x hx
      have h6 : x ∉ l2 := fun hm => hx (by simp [hm])
      have h7 : x ≠ s := fun e => hx (by simp [e])
      rw [g3 x h6]; simp [setPub, h3, h7]

/-- subscribers that do not point to the publisher are simply dropped -/
theorem destroyLoop_foreign (env : PEnv) (d : SubId → Event → PW → Res PW Unit) {p : PubId} {l : List SubId} {w : PW}
    (hs : (w.pubs p).subscribers = l) (hp : ∀ s ∈ l, w.ptr s = none) (ha : ∀ s ∈ l, s ∉ w.deadSubs) (n : Nat) (hn : l.length ≤ n) :
    ∃ w', destroyLoop env d p n w = .ok () w' ∧ w'.ptr = w.ptr ∧ w'.deadPubs = w.deadPubs ∧ (w'.pubs p).subscribers = [] := by
  induction l using List.reverseRecOn generalizing w n with
  | nil => exact ⟨w, by unfold destroyLoop; rw [hs]; rfl, rfl, rfl, hs⟩
  | append_singleton l s ih =>
    obtain ⟨n, rfl⟩ : ∃ m, n = m + 1 := ⟨n - 1, by simp at hn; omega⟩
    have e1 : subUnsubscribe env d s w = .ok () w := by
      unfold subUnsubscribe; rw [if_neg (ha s (by simp)), hp s (by simp)]
    obtain ⟨w2, g1, g2, g3, g4⟩ := ih (w := w.setPub p { w.pubs p with subscribers := l }) (by simp [setPub])
      (fun x hx => by simpa [setPub] using hp x (by simp [hx])) (fun x hx => by simpa [setPub] using ha x (by simp [hx])) n
      (by simp at hn; omega)
    refine ⟨w2, ?_, g2, g3, g4⟩
    unfold destroyLoop
    rw [hs]
    simp only [List.getLast?_append, List.getLast?_singleton, Option.some_or, e1, hs]
    rw [if_neg (by simp), List.dropLast_concat]
    exact g1

end Verif
