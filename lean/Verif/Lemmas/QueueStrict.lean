import Verif.Lemmas.QueueConns
/-! # When the queued events can be replayed strictly -/

set_option linter.unusedSimpArgs false

namespace Verif
namespace Queue

theorem replay_filter_modified {P : Event → Bool} {m m' : Mirror} {l : List Event}
    (hP : ∀ e ∈ l, P e = false → ∃ o t i j, e = .edgeModified o t i j) (h : m.replay l = some m') : m.replay (l.filter P) = some m' := by
  induction l generalizing m with
  | nil => exact h
  | cons e l ih =>
    simp only [Mirror.replay] at h
    cases h1 : m.apply e with
    | none => simp [h1] at h
    | some m1 =>
      rw [h1] at h
      by_cases hp : P e
      · simp only [List.filter_cons, hp, if_true, Mirror.replay, h1]; exact ih (fun x hx => hP x (by simp [hx])) h
      · obtain ⟨o, t, i, j, rfl⟩ := hP e (by simp) (by simpa using hp)
        simp only [List.filter_cons, hp, if_false]
        simp only [Mirror.apply] at h1
        split at h1
        · obtain rfl := Option.some.inj h1; exact ih (fun x hx => hP x (by simp [hx])) h
        · simp at h1

/-- the observer without the connection -/
def dropConn (a b : FrameId) (m : Mirror) : Mirror := { m with conns := (m.conns.erase (a, b)).erase (b, a) }

theorem dropConn_not_mem {a b : FrameId} {m : Mirror} (h : (a, b) ∉ m.conns) (h' : (b, a) ∉ m.conns) : dropConn a b m = m := by
  simp only [dropConn]
  rw [Finset.erase_eq_of_notMem h, Finset.erase_eq_of_notMem h']

theorem mem_dropConn {a b x y : FrameId} {m : Mirror} : (x, y) ∈ (dropConn a b m).conns ↔ ¬ isConn a b x y ∧ (x, y) ∈ m.conns := by
  simp only [dropConn, Finset.mem_erase, ne_eq, Prod.mk.injEq, isConn]; tauto

theorem mirror_ext {m m' : Mirror} (h : m.frames = m'.frames) (h' : ∀ x y, (x, y) ∈ m.conns ↔ (x, y) ∈ m'.conns) : m = m' := by
  cases m; cases m'; simp only [Mirror.mk.injEq]; exact ⟨h, by ext ⟨x, y⟩; exact h' x y⟩

theorem isConn_symm {a b x y : FrameId} : isConn a b x y ↔ isConn a b y x := by simp only [isConn]; tauto

theorem apply_dropConn {a b : FrameId} {m m' : Mirror} {e : Event} (h : m.apply e = some m') :
    (ctag a b e = none → (dropConn a b m).apply e = some (dropConn a b m')) ∧
    (ctag a b e ≠ none → dropConn a b m' = dropConn a b m) := by
  cases e <;> simp only [Mirror.apply] at h
  case frameAdded f =>
    split at h
    · simp at h
    · rename_i hf
      obtain rfl := Option.some.inj h
      exact ⟨fun _ => by simp [Mirror.apply, dropConn, hf], fun hc => by simp [ctag] at hc⟩
  case frameRemoved f =>
    split at h
    · rename_i hf
      obtain rfl := Option.some.inj h
      refine ⟨fun _ => ?_, fun hc => by simp [ctag] at hc⟩
      have : f ∈ (dropConn a b m).frames ∧ ∀ c ∈ (dropConn a b m).conns, c.1 ≠ f ∧ c.2 ≠ f := by
        refine ⟨hf.1, fun c hc => hf.2 c ?_⟩
        obtain ⟨x, y⟩ := c
        exact (mem_dropConn.1 hc).2
      simp only [Mirror.apply]; rw [if_pos this]; rfl
    · simp at h
  case edgeAdded o t i =>
    split at h
    · rename_i hc
      obtain rfl := Option.some.inj h
      constructor
      · intro hn
        have hni : ¬ isConn a b o t := by intro hi; simp [ctag, hi] at hn
        have hc' : o ∈ (dropConn a b m).frames ∧ t ∈ (dropConn a b m).frames ∧ o ≠ t ∧ (o, t) ∉ (dropConn a b m).conns :=
          ⟨hc.1, hc.2.1, hc.2.2.1, fun hh => hc.2.2.2 (mem_dropConn.1 hh).2⟩
        simp only [Mirror.apply]; rw [if_pos hc']
        congr 1
        refine mirror_ext (by rfl) (fun x y => ?_)
        rw [mem_dropConn]
        simp only [Finset.mem_insert, Prod.mk.injEq, mem_dropConn]
        constructor
        · rintro (⟨rfl, rfl⟩ | ⟨rfl, rfl⟩ | ⟨h1, h2⟩)
          · exact ⟨hni, .inl ⟨rfl, rfl⟩⟩
          · exact ⟨fun hi => hni (isConn_symm.1 hi), .inr (.inl ⟨rfl, rfl⟩)⟩
          · exact ⟨h1, .inr (.inr h2)⟩
        · rintro ⟨h1, h2 | h2 | h2⟩
          · exact .inl h2
          · exact .inr (.inl h2)
          · exact .inr (.inr ⟨h1, h2⟩)
      · intro hn
        have hi : isConn a b o t := by by_contra hi; simp [ctag, hi] at hn
        refine mirror_ext (by rfl) (fun x y => ?_)
        simp only [mem_dropConn, Finset.mem_insert, Prod.mk.injEq]
        constructor
        · rintro ⟨h1, ⟨rfl, rfl⟩ | ⟨rfl, rfl⟩ | h2⟩
          · exact absurd hi h1
          · exact absurd (isConn_symm.1 hi) h1
          · exact ⟨h1, h2⟩
        · rintro ⟨h1, h2⟩; exact ⟨h1, .inr (.inr h2)⟩
    · simp at h
  case edgeModified o t i j =>
    split at h
    · rename_i hc
      obtain rfl := Option.some.inj h
      refine ⟨fun hn => ?_, fun _ => rfl⟩
      have hni : ¬ isConn a b o t := by intro hi; simp [ctag, hi] at hn
      simp only [Mirror.apply]; rw [if_pos (mem_dropConn.2 ⟨hni, hc⟩)]
    · simp at h
  case edgeRemoved o t =>
    split at h
    · rename_i hc
      obtain rfl := Option.some.inj h
      constructor
      · intro hn
        have hni : ¬ isConn a b o t := by intro hi; simp [ctag, hi] at hn
        simp only [Mirror.apply]; rw [if_pos (mem_dropConn.2 ⟨hni, hc⟩)]
        congr 1
        refine mirror_ext (by rfl) (fun x y => ?_)
        show (x, y) ∈ (dropConn o t (dropConn a b m)).conns ↔ (x, y) ∈ (dropConn a b (dropConn o t m)).conns
        simp only [mem_dropConn]; tauto
      · intro hn
        have hi : isConn a b o t := by by_contra hi; simp [ctag, hi] at hn
        show dropConn a b (dropConn o t m) = dropConn a b m
        refine mirror_ext (by rfl) (fun x y => ?_)
        simp only [mem_dropConn]
        constructor
        · rintro ⟨h1, _, h2⟩; exact ⟨h1, h2⟩
        · rintro ⟨h1, h2⟩
          refine ⟨h1, fun h3 => h1 ?_, h2⟩
          exact (isConn_of_same h3).1 hi
    · simp at h
  all_goals
    obtain rfl := Option.some.inj h
    exact ⟨fun _ => rfl, fun _ => rfl⟩

theorem replay_dropConn {a b : FrameId} {m m' : Mirror} {l : List Event} (h : m.replay l = some m') :
    (dropConn a b m).replay (l.filter (fun e => decide (ctag a b e = none))) = some (dropConn a b m') := by
  induction l generalizing m with
  | nil => obtain rfl := Option.some.inj h; rfl
  | cons e l ih =>
    simp only [Mirror.replay] at h
    cases h1 : m.apply e with
    | none => simp [h1] at h
    | some m1 =>
      rw [h1] at h
      have h2 := apply_dropConn (a := a) (b := b) h1
      by_cases hc : ctag a b e = none
      · simp only [List.filter_cons, hc, decide_true, if_true, Mirror.replay, h2.1 hc]; exact ih h
      · simp only [List.filter_cons, hc, decide_false]
        rw [← h2.2 hc]; exact ih h

/-- the observer without the frame -/
def dropFrame (f : FrameId) (m : Mirror) : Mirror := { m with frames := m.frames.erase f }

/-- events about the frame or a connection of it -/
def involves (f : FrameId) : Event → Prop
  | .frameAdded g => g = f
  | .frameRemoved g => g = f
  | .edgeAdded o t _ => o = f ∨ t = f
  | .edgeModified o t _ _ => o = f ∨ t = f
  | .edgeRemoved o t => o = f ∨ t = f
  | _ => False

theorem apply_dropFrame {f : FrameId} {m m' : Mirror} {e : Event} (hn : ¬ involves f e) (h : m.apply e = some m') :
    (dropFrame f m).apply e = some (dropFrame f m') := by
  cases e <;> simp only [Mirror.apply] at h <;> simp only [involves, not_or] at hn
  case frameAdded g =>
    split at h
    · simp at h
    · rename_i hg
      obtain rfl := Option.some.inj h
      have : g ∉ (dropFrame f m).frames := by simp [dropFrame, hg]
      simp only [Mirror.apply]; rw [if_neg this]
      congr 1
      exact mirror_ext (by simp only [dropFrame]; rw [Finset.erase_insert_of_ne hn]) (fun _ _ => Iff.rfl)
  case frameRemoved g =>
    split at h
    · rename_i hg
      obtain rfl := Option.some.inj h
      have : g ∈ (dropFrame f m).frames ∧ ∀ c ∈ (dropFrame f m).conns, c.1 ≠ g ∧ c.2 ≠ g :=
        ⟨by simp [dropFrame, hg.1, hn], hg.2⟩
      simp only [Mirror.apply]; rw [if_pos this]
      congr 1
      exact mirror_ext (by simp only [dropFrame]; rw [Finset.erase_right_comm]) (fun _ _ => Iff.rfl)
    · simp at h
  case edgeAdded o t i =>
    split at h
    · rename_i hc
      obtain rfl := Option.some.inj h
      have : o ∈ (dropFrame f m).frames ∧ t ∈ (dropFrame f m).frames ∧ o ≠ t ∧ (o, t) ∉ (dropFrame f m).conns :=
        ⟨by simp [dropFrame, hn.1, hc.1], by simp [dropFrame, hn.2, hc.2.1], hc.2.2.1, hc.2.2.2⟩
      simp only [Mirror.apply]; rw [if_pos this]; rfl
    · simp at h
  case edgeModified o t i j =>
    split at h
    · rename_i hc
      obtain rfl := Option.some.inj h
      simp only [Mirror.apply]; rw [if_pos (by exact hc)]
    · simp at h
  case edgeRemoved o t =>
    split at h
    · rename_i hc
      obtain rfl := Option.some.inj h
      simp only [Mirror.apply]; rw [if_pos (by exact hc)]; rfl
    · simp at h
  all_goals
    obtain rfl := Option.some.inj h
    rfl

theorem replay_dropFrame {f : FrameId} {m m' : Mirror} {l : List Event} (hn : ∀ e ∈ l, ¬ involves f e) (h : m.replay l = some m') :
    (dropFrame f m).replay l = some (dropFrame f m') := by
  induction l generalizing m with
  | nil => obtain rfl := Option.some.inj h; rfl
  | cons e l ih =>
    simp only [Mirror.replay] at h
    cases h1 : m.apply e with
    | none => simp [h1] at h
    | some m1 =>
      rw [h1] at h
      simp only [Mirror.replay, apply_dropFrame (hn e (by simp)) h1]
      exact ih (fun x hx => hn x (by simp [hx])) h

theorem insert_plain {e : Event} {l : List Event} (h : ∀ x ∈ l, x.mergeable e = false) : Queue.insert e l = l ++ [e] := by
  rw [insert_eq, if_neg]
  · congr 1; rw [List.filter_eq_self]; intro x hx; simp [h x hx]
  · rw [List.any_eq_true]; rintro ⟨x, hx, h'⟩; simp [h x hx] at h'

theorem mergeable_removed {a b : FrameId} (x : Event) : x.mergeable (.edgeRemoved a b) = (ctag a b x).isSome := by
  cases x <;> simp only [Event.mergeable, ctag]
  all_goals first
    | rfl
    | (rename_i o t _ _
       by_cases h : isConn a b o t
       · rw [if_pos h, sameEdge_iff.2 (by simp only [isConn] at h ⊢; tauto)]; rfl
       · rw [if_neg h]
         cases hs : sameEdge o t a b
         · rfl
         · exact absurd (by have := sameEdge_iff.1 hs; simp only [isConn] at this ⊢; tauto) h)
    | (rename_i o t _
       by_cases h : isConn a b o t
       · rw [if_pos h, sameEdge_iff.2 (by simp only [isConn] at h ⊢; tauto)]; rfl
       · rw [if_neg h]
         cases hs : sameEdge o t a b
         · rfl
         · exact absurd (by have := sameEdge_iff.1 hs; simp only [isConn] at this ⊢; tauto) h)
    | (rename_i o t
       by_cases h : isConn a b o t
       · rw [if_pos h, sameEdge_iff.2 (by simp only [isConn] at h ⊢; tauto)]; rfl
       · rw [if_neg h]
         cases hs : sameEdge o t a b
         · rfl
         · exact absurd (by have := sameEdge_iff.1 hs; simp only [isConn] at this ⊢; tauto) h)

theorem filter_removed {a b : FrameId} (l : List Event) :
    l.filter (fun x => !x.mergeable (.edgeRemoved a b)) = l.filter (fun e => decide (ctag a b e = none)) := by
  apply List.filter_congr
  intro x _
  rw [mergeable_removed]
  cases ctag a b x <;> rfl

/-- the conn of an involved edge event -/
theorem involves_tag {f : FrameId} {e : Event} (h : involves f e) (h' : ftag f e = none) : ∃ g, ctag f g e ≠ none := by
  cases e <;> simp only [involves] at h <;> simp [ftag] at h'
  case frameAdded g => exact absurd h h'
  case frameRemoved g => exact absurd h h'
  case edgeAdded o t i =>
    rcases h with rfl | rfl
    · exact ⟨t, by simp [ctag, isConn]⟩
    · exact ⟨o, by simp [ctag, isConn]⟩
  case edgeModified o t i j =>
    rcases h with rfl | rfl
    · exact ⟨t, by simp [ctag, isConn]⟩
    · exact ⟨o, by simp [ctag, isConn]⟩
  case edgeRemoved o t =>
    rcases h with rfl | rfl
    · exact ⟨t, by simp [ctag, isConn]⟩
    · exact ⟨o, by simp [ctag, isConn]⟩

theorem strict {m m' : Mirror} (hp : m.Proper) {es : List Event} (h : m.replay es = some m')
    (hr : ∀ a b, (a, b) ∈ m.conns → removals a b es ≤ 1) : m.replay (queued [] es) = some m' := by
  induction es using List.reverseRecOn generalizing m' with
  | nil => exact h
  | append_singleton es e ih =>
    obtain ⟨m1, h1, h2⟩ := Mirror.replay_snoc.1 h
    have hr1 : ∀ a b, (a, b) ∈ m.conns → removals a b es ≤ 1 := fun a b hab => by
      have := hr a b hab; rw [removals_append] at this; omega
    have hq := ih h1 hr1
    have hp1 := hp.replay h1
    rw [queued_snoc]
    have plain : (∀ x ∈ queued [] es, x.mergeable e = false) → m.replay (Queue.insert e (queued [] es)) = some m' := by
      intro hx; rw [insert_plain hx]; exact Mirror.replay_snoc.2 ⟨m1, hq, h2⟩
    cases e with
    | frameAdded f => exact plain (by intro x _; cases x <;> rfl)
    | edgeAdded o t i => exact plain (by intro x _; cases x <;> rfl)
    | itemAdded f i => exact plain (by intro x _; cases x <;> rfl)
    | itemRemoved f i => exact plain (by intro x _; cases x <;> rfl)
    | edgeModified o t i j =>
      rw [insert_eq, if_neg]
      · refine Mirror.replay_snoc.2 ⟨m1, replay_filter_modified ?_ hq, h2⟩
        intro x _ hx
        cases x <;> simp [Event.mergeable] at hx
        exact ⟨_, _, _, _, rfl⟩
      · rw [List.any_eq_true]; rintro ⟨x, _, hx⟩; cases x <;> simp [Event.cancels] at hx
    | edgeRemoved a b =>
      obtain ⟨hs, _⟩ := conn_shape hp h1 a b
      have hab : (a, b) ∈ m1.conns := by
        simp only [Mirror.apply] at h2; split at h2
        · assumption
        · simp at h2
      have hm' : m' = dropConn a b m1 := by
        simp only [Mirror.apply, if_pos hab] at h2; exact (Option.some.inj h2).symm
      have hany : ((queued [] es).any (fun x => x.mergeable (.edgeRemoved a b) && x.cancels (.edgeRemoved a b)) = true) ↔
          Tag.added ∈ (queued [] es).filterMap (ctag a b) := by
        rw [List.any_eq_true, List.mem_filterMap]
        constructor
        · rintro ⟨x, hx, hxc⟩
          refine ⟨x, hx, ?_⟩
          rw [mergeable_removed, Bool.and_eq_true] at hxc
          cases x <;> simp [Event.cancels, ctag] at hxc ⊢
          exact hxc
        · rintro ⟨x, hx, hxt⟩
          refine ⟨x, hx, ?_⟩
          rw [mergeable_removed, hxt]
          cases x <;> simp [ctag] at hxt
          rfl
      rw [insert_eq, filter_removed]
      simp only [hab, decide_true] at hs
      by_cases hA : Tag.added ∈ (queued [] es).filterMap (ctag a b)
      · rw [if_pos (hany.2 hA)]
        have hno : (a, b) ∉ m.conns := by
          intro hin
          have hle := hr a b hin
          rw [removals_append] at hle
          have h1' : removals a b [Event.edgeRemoved a b] = 1 := by simp [removals, isConn]
          simp only [hin, decide_true, CShape] at hs
          rcases hs with ⟨_, h | h⟩ | ⟨h', _⟩ | ⟨h', _⟩
          · rw [h] at hA; simp at hA
          · rw [h] at hA; simp at hA
          · omega
          · omega
        have hno' : (b, a) ∉ m.conns := fun hin => hno (hp.symm _ _ hin)
        have := replay_dropConn (a := a) (b := b) hq
        rw [dropConn_not_mem hno hno'] at this
        rw [this, hm']
      · rw [if_neg (fun hh => hA (hany.1 hh))]
        refine Mirror.replay_snoc.2 ⟨m1, replay_filter_modified ?_ hq, h2⟩
        intro x hx hxn
        have hM : ∀ t ∈ (queued [] es).filterMap (ctag a b), t = .modified := by
          by_cases hin : (a, b) ∈ m.conns
          · simp only [hin, decide_true, CShape] at hs
            rcases hs with ⟨_, h | h⟩ | ⟨_, h | h⟩ | ⟨_, h | h⟩ <;> rw [h] at hA ⊢ <;> simp at hA ⊢
          · simp only [hin, decide_false, CShape] at hs
            rcases hs with h | h <;> rw [h] at hA <;> simp at hA
        cases ht : ctag a b x with
        | none => simp [ht] at hxn
        | some t =>
          have := hM t (List.mem_filterMap.2 ⟨x, hx, ht⟩)
          subst this
          cases x <;> simp [ctag] at ht
          exact ⟨_, _, _, _, rfl⟩
    | frameRemoved f =>
      by_cases hA : Event.frameAdded f ∈ queued [] es
      · obtain ⟨hs, _⟩ := frame_shape h1 f
        have hf1 : f ∈ m1.frames ∧ ∀ c ∈ m1.conns, c.1 ≠ f ∧ c.2 ≠ f := by
          simp only [Mirror.apply] at h2; split at h2
          · assumption
          · simp at h2
        have hm' : m' = dropFrame f m1 := by
          simp only [Mirror.apply, if_pos hf1] at h2; exact (Option.some.inj h2).symm
        have hno : ∀ g, (f, g) ∉ m1.conns := fun g hg => (hf1.2 _ hg).1 rfl
        obtain ⟨q1, q2, hq12⟩ := List.append_of_mem hA
        have hmem : ∀ l : List Event, Event.frameAdded f ∈ l ↔ true ∈ l.filterMap (ftag f) := by
          intro l
          rw [List.mem_filterMap]
          constructor
          · intro hl; exact ⟨_, hl, by simp [ftag]⟩
          · rintro ⟨x, hx, hxt⟩
            cases x <;> simp [ftag] at hxt
            subst hxt; exact hx
        rw [hq12] at hs
        simp only [List.filterMap_append, List.filterMap_cons, ftag, if_true, hf1.1, decide_true] at hs
        have hq2 : q2.filterMap (ftag f) = [] ∧ true ∉ q1.filterMap (ftag f) := by
          generalize q2.filterMap (ftag f) = T2 at hs
          by_cases hin : f ∈ m.frames
          · simp only [hin, decide_true, FShape] at hs
            rcases hs with h | h
            · simp at h
            · cases h3 : q1.filterMap (ftag f) with
              | nil => rw [h3] at h; simp at h
              | cons u r =>
                rw [h3] at h
                simp only [List.cons_append, List.cons.injEq] at h
                obtain ⟨rfl, h⟩ := h
                cases r with
                | nil => simp at h; simp [h]
                | cons u' r' => simp at h
          · simp only [hin, decide_false, FShape] at hs
            cases h3 : q1.filterMap (ftag f) with
            | nil => rw [h3] at hs; simp at hs; simp [hs]
            | cons u r => rw [h3] at hs; simp at hs
        have hins : Queue.insert (.frameRemoved f) (queued [] es) = q1 ++ q2 := by
          rw [insert_eq, if_pos]
          · have hk : ∀ l : List Event, Event.frameAdded f ∉ l → l.filter (fun x => !x.mergeable (.frameRemoved f)) = l := by
              intro l hl
              rw [List.filter_eq_self]
              intro x hx
              cases x <;> simp [Event.mergeable]
              rintro rfl; exact hl hx
            rw [hq12, List.filter_append, List.filter_cons, hk q1 (by rw [hmem]; exact hq2.2),
              hk q2 (by rw [hmem, hq2.1]; simp)]
            simp [Event.mergeable]
          · rw [List.any_eq_true]; exact ⟨_, hA, by simp [Event.mergeable, Event.cancels]⟩
        rw [hins]
        rw [hq12, Mirror.replay_append] at hq
        cases hma : m.replay q1 with
        | none => simp [hma] at hq
        | some ma =>
          rw [hma] at hq
          simp only [Option.bind_some, Mirror.replay] at hq
          cases hmb : ma.apply (.frameAdded f) with
          | none => simp [hmb] at hq
          | some mb =>
            rw [hmb] at hq
            simp only [Option.bind_some] at hq
            simp only [Mirror.apply] at hmb
            split at hmb
            · simp at hmb
            · rename_i hfa
              obtain rfl := Option.some.inj hmb
              have hpa := hp.replay hma
              have hinv : ∀ x ∈ q2, ¬ involves f x := by
                intro x hx hi
                have hft : ftag f x = none := by
                  cases hft : ftag f x with
                  | none => rfl
                  | some t =>
                    have : t ∈ q2.filterMap (ftag f) := List.mem_filterMap.2 ⟨x, hx, hft⟩
                    rw [hq2.1] at this; simp at this
                obtain ⟨g, hg⟩ := involves_tag hi hft
                obtain ⟨t, hg⟩ := Option.ne_none_iff_exists'.1 hg
                have ht2 : t ∈ q2.filterMap (ctag f g) := List.mem_filterMap.2 ⟨x, hx, hg⟩
                obtain ⟨hcs, _⟩ := conn_shape hp h1 f g
                rw [hq12] at hcs
                simp only [List.filterMap_append, List.filterMap_cons, ctag, hno g, decide_false] at hcs
                by_cases hin : (f, g) ∈ m.conns
                · simp only [hin, decide_true, CShape] at hcs
                  have hle := hr1 f g hin
                  rcases hcs with ⟨_, h⟩ | ⟨h, _⟩
                  · have hq1n : q1.filterMap (ctag f g) = [] := by
                      cases h3 : q1.filterMap (ctag f g) with
                      | nil => rfl
                      | cons u r =>
                        rw [h3] at h; simp at h
                        obtain ⟨x', hx'⟩ := List.exists_mem_of_ne_nil _ (List.ne_nil_of_mem ht2)
                        have : x' ∈ ([] : List Tag) := by
                          have h5 : q2.filterMap (ctag f g) = [] := by rw [List.filterMap_eq_nil_iff]; exact h.2.2
                          rw [h5] at hx'; exact hx'
                        simp at this
                    have hca := (conn_shape hp hma f g).2
                    rw [connAfter_eq, hq1n] at hca
                    simp only [tagsAfter, hin, decide_true] at hca
                    have : (f, g) ∈ ma.conns := by simpa using hca.symm
                    exact hfa (hpa.known _ _ this).1
                  · omega
                · simp only [hin, decide_false, CShape] at hcs
                  have : t ∈ ([] : List Tag) := by rw [← hcs]; simp [ht2]
                  simp at this
              have := replay_dropFrame hinv hq
              have hma' : dropFrame f { ma with frames := Insert.insert f ma.frames } = ma :=
                mirror_ext (by simp [dropFrame, hfa]) (fun _ _ => Iff.rfl)
              rw [hma'] at this
              rw [Mirror.replay_append, hma, hm']
              exact this
      · refine plain ?_
        intro x hx
        cases x <;> simp [Event.mergeable]
        rintro rfl; exact hA hx

/-- a strictly replayed sequence does not add an existing connection -/
theorem head_tag {m m' : Mirror} (hp : m.Proper) {l : List Event} (h : m.replay l = some m') {a b : FrameId}
    (hab : (a, b) ∈ m.conns) : (l.filterMap (ctag a b)).head? ≠ some .added := by
  induction l generalizing m with
  | nil => simp
  | cons e l ih =>
    simp only [Mirror.replay] at h
    cases h1 : m.apply e with
    | none => simp [h1] at h
    | some m1 =>
      rw [h1] at h
      obtain ⟨h2, h3⟩ := apply_conn hp h1 a b
      simp only [hab, decide_true] at h2 h3
      cases ht : ctag a b e with
      | none =>
        rw [List.filterMap_cons, ht]
        refine ih (hp.apply h1) h ?_
        rw [connAfter_eq] at h3
        simp only [List.filterMap_cons, ht, List.filterMap_nil, tagsAfter] at h3
        simpa using h3.symm
      | some t =>
        rw [List.filterMap_cons, ht]
        have := (h2 t ht).1 rfl
        simpa using this

theorem strict_iff {m m' : Mirror} (hp : m.Proper) {es : List Event} (h : m.replay es = some m') :
    m.replay (queued [] es) = some m' ↔ ∀ a b, (a, b) ∈ m.conns → removals a b es ≤ 1 := by
  refine ⟨fun hq a b hab => ?_, strict hp h⟩
  by_contra hr
  have h2 : 2 ≤ removals a b es := by omega
  obtain ⟨hs, _⟩ := conn_shape hp h a b
  simp only [hab, decide_true] at hs
  by_cases hab' : (a, b) ∈ m'.conns
  · simp only [hab', decide_true, CShape] at hs
    have hhd := head_tag hp hq hab
    rcases hs with ⟨h3, _⟩ | ⟨h3, _⟩ | ⟨_, h3 | h3⟩
    · omega
    · omega
    · rw [h3] at hhd; simp at hhd
    · rw [h3] at hhd; simp at hhd
  · simp only [hab', decide_false, CShape] at hs
    rcases hs with ⟨h3, _⟩ | ⟨_, h3⟩
    · omega
    · have := (conn_shape hp hq a b).2
      rw [connAfter_eq, h3] at this
      simp [tagsAfter, hab, hab'] at this

end Queue
end Verif
