import Verif.Lemmas.QueueStrict
/-! # Programs that use a queue -/

set_option linter.unusedSimpArgs false

namespace Verif

/-- `process` neither causes events nor throws -/
def QEnv.Passive (env : QEnv) : Prop := ∀ l, env l = ([], false)

/-- notify the events of each batch and flush after it; every program that ends with a flush has this form -/
def batchProgram (bs : List (List Event)) : List Queue.Cmd := bs.flatMap (fun b => b.map .notify ++ [.flush])

namespace Queue

theorem flush_passive {env : QEnv} (hp : env.Passive) {n : Nat} {q : Queue} (hn : q.events.length ≤ n) :
    flush env n q = .ok () ⟨[], q.processed ++ q.events⟩ := by
  induction n generalizing q with
  | zero =>
    have : q.events = [] := List.eq_nil_of_length_eq_zero (by omega)
    unfold flush; simp only [this, List.append_nil]; cases q; simp_all
  | succ n ih =>
    unfold flush
    cases h : q.events with
    | nil => simp only [List.append_nil]; cases q; simp_all
    | cons c r =>
      simp only [hp _, arrive, Bool.false_eq_true, if_false, List.tail_cons]
      rw [ih (by simp only; rw [h] at hn; simpa using hn)]
      simp

theorem run_append (env : QEnv) (n : Nat) (cs cs' : List Cmd) (q : Queue) :
    run env n (cs ++ cs') q = (run env n cs q).bind (run env n cs') := by
  induction cs generalizing q with
  | nil => rfl
  | cons c cs ih =>
    cases c with
    | notify e => simpa [run] using ih _
    | flush => simp only [List.cons_append, run]; cases flush env n q <;> simp [ih]

theorem run_notifies (env : QEnv) (n : Nat) (es : List Event) (q : Queue) :
    run env n (es.map .notify) q = some { q with events := queued q.events es } := by
  induction es generalizing q with
  | nil => rfl
  | cons e es ih => simp only [List.map_cons, run, ih]; rfl

theorem insert_length (e : Event) (l : List Event) : (insert e l).length ≤ l.length + 1 := by
  rw [insert_eq]
  have := List.length_filter_le (fun x => !Event.mergeable x e) l
  split
  · omega
  · simp; omega

theorem queued_length (l es : List Event) : (queued l es).length ≤ l.length + es.length := by
  induction es using List.reverseRecOn with
  | nil => simp
  | append_singleton es e ih =>
    rw [queued_snoc]
    have := insert_length e (queued l es)
    simp; omega

/-- one batch after any earlier flush -/
theorem run_batch {env : QEnv} (hp : env.Passive) {n : Nat} {es : List Event} (hn : es.length ≤ n) {q : Queue} (hq : q.events = []) :
    run env n (es.map .notify ++ [.flush]) q = some ⟨[], q.processed ++ queued [] es⟩ := by
  rw [run_append, run_notifies, hq]
  simp only [Option.bind_some, run]
  rw [flush_passive hp (by have := queued_length [] es; simp at this ⊢; omega)]

theorem run_batches {env : QEnv} (hp : env.Passive) {n : Nat} {bs : List (List Event)} (hn : ∀ b ∈ bs, b.length ≤ n) {q : Queue}
    (hq : q.events = []) : run env n (batchProgram bs) q = some ⟨[], q.processed ++ bs.flatMap (queued [])⟩ := by
  induction bs generalizing q with
  | nil => cases q; simp_all [batchProgram, run]
  | cons b bs ih =>
    show run env n ((b.map .notify ++ [.flush]) ++ batchProgram bs) q = _
    rw [run_append, run_batch hp (hn b (by simp)) hq]
    simp only [Option.bind_some]
    rw [ih (fun c hc => hn c (by simp [hc])) rfl]
    simp

theorem frames_batches {m m' : Mirror} {bs : List (List Event)} (h : m.replay bs.flatten = some m') (f : FrameId) :
    frameAfter f (decide (f ∈ m.frames)) (bs.flatMap (queued [])) = decide (f ∈ m'.frames) := by
  induction bs generalizing m with
  | nil => obtain rfl := Option.some.inj h; rfl
  | cons b bs ih =>
    rw [List.flatten_cons, Mirror.replay_append] at h
    cases h1 : m.replay b with
    | none => simp [h1] at h
    | some m1 =>
      rw [h1] at h
      rw [List.flatMap_cons, frameAfter_append]
      have h2 := (frame_shape h1 f).1.after
      rw [← frameAfter_eq] at h2
      rw [h2]; exact ih h

/-- the queue keeps a sublist of what it received -/
theorem insert_sublist (e : Event) (l : List Event) : (insert e l).Sublist (l ++ [e]) := by
  rw [insert_eq]; split
  · exact (List.filter_sublist).trans (List.sublist_append_left _ _)
  · exact List.filter_sublist.append_right _

theorem queued_sublist (es : List Event) : (queued [] es).Sublist es := by
  induction es using List.reverseRecOn with
  | nil => simp
  | append_singleton es e ih => rw [queued_snoc]; exact (insert_sublist e _).trans (ih.append_right _)

theorem queued_items (es : List Event) : (queued [] es).filter Event.isItem = es.filter Event.isItem := by
  induction es using List.reverseRecOn with
  | nil => rfl
  | append_singleton es e ih =>
    rw [queued_snoc, insert_eq]
    have h1 : ∀ l : List Event, (l.filter (fun x => !x.mergeable e)).filter Event.isItem = l.filter Event.isItem := by
      intro l
      rw [List.filter_filter]
      apply List.filter_congr
      intro x _
      cases x <;> cases e <;> simp [Event.mergeable, Event.isItem]
    have h2 : (queued [] es).any (fun x => x.mergeable e && x.cancels e) = true → e.isItem = false := by
      rw [List.any_eq_true]; rintro ⟨x, _, hx⟩
      cases x <;> cases e <;> simp [Event.mergeable, Event.isItem, Event.cancels] at hx ⊢
    split
    · rename_i h; rw [h1, ih, List.filter_append]; simp [h2 h]
    · rw [List.filter_append, h1, ih, List.filter_append]

theorem modifies_tag {a b : FrameId} {e : Event} : e.modifies a b ↔ ctag a b e = some .modified := by
  cases e <;> simp [Event.modifies, ctag]

theorem removes_tag {a b : FrameId} {e : Event} : e.removes a b ↔ ctag a b e = some .removed := by
  cases e <;> simp [Event.removes, ctag]

/-- which modified events are queued -/
theorem modified_mem {a b : FrameId} {x : Event} (hx : x.modifies a b) (es : List Event) :
    x ∈ queued [] es ↔ ∃ es1 es2, es = es1 ++ x :: es2 ∧ ∀ y ∈ es2, ¬ y.modifies a b ∧ ¬ y.removes a b := by
  have hmrg : ∀ e : Event, x.mergeable e = true ↔ e.modifies a b ∨ e.removes a b := by
    intro e
    cases x <;> simp only [Event.modifies] at hx
    cases e <;> simp only [Event.modifies, Event.removes, Event.mergeable, or_false, false_or, Bool.false_eq_true, iff_false]
    all_goals first
      | (rw [sameEdge_iff]
         exact ⟨fun h => (isConn_of_same h).1 hx, fun h => same_of_isConn hx h⟩)
  induction es using List.reverseRecOn with
  | nil => simp
  | append_singleton es e ih =>
    rw [queued_snoc, insert_eq]
    constructor
    · intro h
      have hcase : x = e ∨ (x ∈ queued [] es ∧ x.mergeable e = false) := by
        split at h
        · rw [List.mem_filter] at h; exact .inr ⟨h.1, by simpa using h.2⟩
        · rw [List.mem_append, List.mem_filter] at h
          rcases h with h | h
          · exact .inr ⟨h.1, by simpa using h.2⟩
          · exact .inl (by simpa using h)
      rcases hcase with rfl | ⟨h1, h2⟩
      · exact ⟨es, [], rfl, by simp⟩
      · obtain ⟨es1, es2, rfl, h3⟩ := ih.1 h1
        refine ⟨es1, es2 ++ [e], by simp, ?_⟩
        intro y hy
        rcases List.mem_append.1 hy with hy | hy
        · exact h3 y hy
        · simp at hy; subst hy
          have : ¬ (x.mergeable y = true) := by simp [h2]
          rw [hmrg, not_or] at this; exact this
    · rintro ⟨es1, es2, h1, h2⟩
      rcases List.eq_nil_or_concat es2 with rfl | ⟨es2', y, rfl⟩
      · have hxe : e = x := by
          have := congrArg List.getLast? h1; simpa using this
        subst hxe
        rw [if_neg]
        · simp
        · rw [List.any_eq_true]; rintro ⟨z, _, hz⟩
          cases e <;> simp only [Event.modifies] at hx
          cases z <;> simp [Event.cancels] at hz
      · simp only [List.concat_eq_append] at h1 h2
        have h1' : es ++ [e] = (es1 ++ x :: es2') ++ [y] := by rw [h1]; simp
        obtain ⟨hes, hy⟩ := List.append_inj' h1' rfl
        obtain rfl : e = y := by simpa using hy
        have h3 : x ∈ queued [] es := ih.2 ⟨es1, es2', hes, fun z hz => h2 z (by simp [hz])⟩
        have h4 : x.mergeable e = false := by
          cases hm : x.mergeable e
          · rfl
          · have := h2 e (by simp); rw [hmrg] at hm; tauto
        have h5 : x ∈ (queued [] es).filter (fun x => !x.mergeable e) := List.mem_filter.2 ⟨h3, by simp [h4]⟩
        split
        · exact h5
        · exact List.mem_append_left _ h5

theorem modified_once (a b : FrameId) (es : List Event) :
    ((queued [] es).filter (fun e => decide (e.modifies a b))).length ≤ 1 := by
  have h1 : ∀ l : List Event, (l.filter (fun e => decide (e.modifies a b))).length = (l.filterMap (ctag a b)).count .modified := by
    intro l
    induction l with
    | nil => rfl
    | cons x l ih =>
      by_cases hm : x.modifies a b
      · have := modifies_tag.1 hm
        simp [List.filter_cons, hm, List.filterMap_cons, this, ih]
      · have : ctag a b x ≠ some .modified := fun h => hm (modifies_tag.2 h)
        cases ht : ctag a b x with
        | none => simp [List.filter_cons, hm, List.filterMap_cons, ht, ih]
        | some t =>
          rw [ht] at this
          simp only [ne_eq, Option.some.injEq] at this
          simp [List.filter_cons, hm, List.filterMap_cons, ht, ih, List.count_cons, this]
  rw [h1]
  induction es using List.reverseRecOn with
  | nil => simp
  | append_singleton es e ih =>
    rw [queued_snoc, ctags_insert]
    generalize (queued [] es).filterMap (ctag a b) = L at *
    cases ctag a b e with
    | none => exact ih
    | some t =>
      cases t
      · simpa [List.count_append, List.count_cons] using ih
      · simp only [List.count_append]
        have : (L.filter (fun u => !decide (u = Tag.modified))).count .modified = 0 := by
          rw [List.count_eq_zero]; simp
        rw [this]; simp
      · simp only; split <;> simp [List.count_cons]

end Queue
end Verif
