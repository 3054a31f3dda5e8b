import Verif.Spec.QueueMem
import Verif.Lemmas.Queue
/-! # Lemmas about the memory of event queues -/

namespace Verif
namespace QW

/-- Every pointer of a queue points to an event, and no event has two pointers. -/
structure QInv (s : QW) : Prop where
  fresh : ∀ p, s.cell p ≠ none → p < s.next
  live : ∀ q p, p ∈ s.queues q → s.cell p ≠ none
  nodup : ∀ q, (s.queues q).Nodup
  disj : ∀ q r p, p ∈ s.queues q → p ∈ s.queues r → q = r
  dead : ∀ q, s.life q ≠ .alive → s.queues q = []

theorem init_qinv : QInv init := ⟨by simp [init], by simp [init], by simp [init], by simp [init], by simp [init]⟩

/-- the pointer is to an event that the new one supersedes -/
def superseded (cell : Nat → Option Event) (e : Event) (p : Nat) : Bool := (cell p).any (fun x => x.mergeable e)

theorem scan_eq {cell : Nat → Option Event} {l : List Nat} (h : ∀ p ∈ l, cell p ≠ none) (e : Event) (b : Bool) :
    scan cell e l b = some (l.filter (fun p => !superseded cell e p), (Queue.scan e (l.filterMap cell) b).2) ∧
    (l.filter (fun p => !superseded cell e p)).filterMap cell = (Queue.scan e (l.filterMap cell) b).1 := by
  induction l generalizing b with
  | nil => simp [scan, Queue.scan]
  | cons p l ih =>
    have ih := fun b => ih (fun q hq => h q (by simp [hq])) b
    cases hc : cell p with
    | none => exact absurd hc (h p (by simp))
    | some x =>
      simp only [scan, hc, List.filterMap_cons, Queue.scan, List.filter_cons, superseded, Option.any_some]
      by_cases hm : x.mergeable e
      · simp only [hm, if_true, Bool.not_true, Bool.false_eq_true, if_false]
        exact ih _
      · simp only [hm, Bool.false_eq_true, if_false, Bool.not_false, if_true, List.filterMap_cons, hc]
        have := ih b
        simp only [superseded] at this
        rw [this.1]
        exact ⟨rfl, by rw [this.2]⟩

/-- what calls of one queue leave alone -/
structure Keeps (q : Nat) (s t : QW) : Prop where
  inv : QInv t
  queues : ∀ r, r ≠ q → t.queues r = s.queues r
  evs : ∀ r, r ≠ q → t.events r = s.events r
  life : t.life = s.life
  proc : ∀ r, r ≠ q → t.processed r = s.processed r
  next : s.next ≤ t.next
  leaked : ∀ p, Leaked s p → Leaked t p

theorem Keeps.refl {q : Nat} {s : QW} (h : QInv s) : Keeps q s s :=
  ⟨h, fun _ _ => rfl, fun _ _ => rfl, rfl, fun _ _ => rfl, Nat.le_refl _, fun _ h => h⟩

theorem Keeps.trans {q : Nat} {s t u : QW} (h : Keeps q s t) (k : Keeps q t u) : Keeps q s u :=
  ⟨k.inv, fun r hr => (k.queues r hr).trans (h.queues r hr), fun r hr => (k.evs r hr).trans (h.evs r hr), k.life.trans h.life,
    fun r hr => (k.proc r hr).trans (h.proc r hr), Nat.le_trans h.next k.next, fun p hp => k.leaked p (h.leaked p hp)⟩

theorem filterMap_congr' {l : List Nat} {f g : Nat → Option Event} (h : ∀ p ∈ l, f p = g p) : l.filterMap f = l.filterMap g := by
  induction l with
  | nil => rfl
  | cons p l ih =>
    rw [List.filterMap_cons, List.filterMap_cons, h p (by simp), ih (fun q hq => h q (by simp [hq]))]

theorem notify_spec {s : QW} (h : QInv s) {q : Nat} (hq : s.life q = .alive) (e : Event) :
    ∃ t, notify q e s = .ok () t ∧ Keeps q s t ∧ t.events q = Queue.insert e (s.events q) ∧ t.processed = s.processed ∧
      (∀ p, s.cell p ≠ none → t.cell p = s.cell p) ∧
      (∀ p ∈ s.queues q, superseded s.cell e p = false → p ∈ t.queues q) ∧
      (∀ p l, s.queues q = p :: l → superseded s.cell e p = false → ∃ l', t.queues q = p :: l') ∧
      ∀ p, Leaked t p ↔ Leaked s p ∨ (p ∈ s.queues q ∧ superseded s.cell e p = true) := by
  obtain ⟨h1, h2⟩ := scan_eq (fun p hp => h.live q p hp) e false
  unfold notify
  rw [h1]
  have hns : ∀ r, s.next ∉ s.queues r := fun r hr => absurd (h.fresh _ (h.live r _ hr)) (Nat.lt_irrefl _)
  have hnc : s.cell s.next = none := by
    cases hc : s.cell s.next with
    | none => rfl
    | some x => exact absurd (h.fresh s.next (by rw [hc]; simp)) (Nat.lt_irrefl _)
  have hsub : ∀ p, p ∈ (s.queues q).filter (fun p => !superseded s.cell e p) ↔ p ∈ s.queues q ∧ superseded s.cell e p = false := by
    intro p; simp
  have hne : ∀ r p, p ∈ s.queues r → p ≠ s.next := fun r p hp hx => hns r (hx ▸ hp)
  cases hs : (Queue.scan e ((s.queues q).filterMap s.cell) false).2 with
  | true =>
    refine ⟨_, rfl, ⟨⟨?_, ?_, ?_, ?_, ?_⟩, ?_, ?_, rfl, fun _ _ => rfl, Nat.le_refl _, ?_⟩, ?_, rfl, fun _ _ => rfl, ?_, ?_, ?_⟩
    · exact h.fresh
    · intro r p hp
      simp only [setQueue] at hp ⊢
      split at hp
      · exact h.live q p ((hsub p).1 hp).1
      · exact h.live r p hp
    · intro r
      simp only [setQueue]
      split
      · exact (h.nodup q).filter _
      · exact h.nodup r
    · intro r r' p h3 h4
      simp only [setQueue] at h3 h4
      have g : ∀ r, p ∈ (if r = q then (s.queues q).filter (fun p => !superseded s.cell e p) else s.queues r) → p ∈ s.queues r := by
        intro r hr
        split at hr
        · rename_i hx; exact hx ▸ ((hsub p).1 hr).1
        · exact hr
      exact h.disj r r' p (g r h3) (g r' h4)
    · intro r hr
      simp only [setQueue]
      split
      · rename_i hx; rw [hx] at hr; exact absurd hq hr
      · exact h.dead r hr
    · intro r hr; simp [setQueue, hr]
    · intro r hr; simp [setQueue, hr, events]
    · rintro p ⟨h3, h4⟩
      refine ⟨h3, fun r hr => ?_⟩
      simp only [setQueue] at hr
      split at hr
      · exact h4 q ((hsub p).1 hr).1
      · exact h4 r hr
    · simp only [events, setQueue, if_true]
      rw [Queue.insert, if_pos hs, h2]
    · intro p hp hm
      simp only [setQueue, if_true]
      exact (hsub p).2 ⟨hp, hm⟩
    · intro p l hl hm
      simp only [setQueue, if_true, hl, List.filter_cons, hm, Bool.not_false]
      exact ⟨_, rfl⟩
    · intro p
      constructor
      · rintro ⟨h3, h4⟩
        by_cases hp : p ∈ s.queues q
        · cases hm : superseded s.cell e p with
          | true => exact .inr ⟨hp, rfl⟩
          | false =>
            have := h4 q
            simp only [setQueue, if_true] at this
            exact absurd ((hsub p).2 ⟨hp, hm⟩) this
        · refine .inl ⟨h3, fun r hr => ?_⟩
          have := h4 r
          simp only [setQueue] at this
          split at this
          · rename_i hx; exact hp (hx ▸ hr)
          · exact this hr
      · rintro (⟨h3, h4⟩ | ⟨h3, h4⟩)
        · refine ⟨h3, fun r hr => ?_⟩
          simp only [setQueue] at hr
          split at hr
          · exact h4 q ((hsub p).1 hr).1
          · exact h4 r hr
        · refine ⟨h.live q p h3, fun r hr => ?_⟩
          simp only [setQueue] at hr
          split at hr
          · have := ((hsub p).1 hr).2; rw [h4] at this; cases this
          · rename_i hx; exact hx (h.disj r q p hr h3)
  | false =>
    have hcell : ∀ p, s.cell p ≠ none → (if p = s.next then some e else s.cell p) = s.cell p := by
      intro p hp
      rw [if_neg]
      rintro rfl
      exact hp hnc
    refine ⟨_, rfl, ⟨⟨?_, ?_, ?_, ?_, ?_⟩, ?_, ?_, rfl, fun _ _ => rfl, Nat.le_succ _, ?_⟩, ?_, rfl, ?_, ?_, ?_, ?_⟩
    · intro p hp
      simp only [setQueue, setCell] at hp ⊢
      split at hp
      · omega
      · have := h.fresh p hp; omega
    · intro r p hp
      simp only [setQueue, setCell] at hp ⊢
      split
      · simp
      · rename_i hpn
        split at hp
        · rcases List.mem_append.1 hp with hp | hp
          · exact h.live q p ((hsub p).1 hp).1
          · exact absurd (List.mem_singleton.1 hp) hpn
        · exact h.live r p hp
    · intro r
      simp only [setQueue, setCell]
      split
      · refine List.nodup_append.2 ⟨(h.nodup q).filter _, by simp, ?_⟩
        intro a ha b hb
        rw [List.mem_singleton.1 hb]
        exact hne q a ((hsub a).1 ha).1
      · exact h.nodup r
    · intro r r' p h3 h4
      simp only [setQueue, setCell] at h3 h4
      have g : ∀ r, p ∈ (if r = q then (s.queues q).filter (fun p => !superseded s.cell e p) ++ [s.next] else s.queues r) →
          p ∈ s.queues r ∨ (p = s.next ∧ r = q) := by
        intro r hr
        split at hr
        · rename_i hx
          rcases List.mem_append.1 hr with hr | hr
          · exact .inl (hx ▸ ((hsub p).1 hr).1)
          · exact .inr ⟨List.mem_singleton.1 hr, hx⟩
        · exact .inl hr
      rcases g r h3 with a | ⟨a, a'⟩ <;> rcases g r' h4 with b | ⟨b, b'⟩
      · exact h.disj r r' p a b
      · exact absurd b (hne r p a)
      · exact absurd a (hne r' p b)
      · rw [a', b']
    · intro r hr
      simp only [setQueue, setCell] at hr ⊢
      split
      · rename_i hx; rw [hx] at hr; exact absurd hq hr
      · exact h.dead r hr
    · intro r hr; simp [setQueue, setCell, hr]
    · intro r hr
      simp only [setQueue, setCell, hr, events, if_false]
      exact filterMap_congr' (fun p hp => hcell p (h.live r p hp))
    · rintro p ⟨h3, h4⟩
      refine ⟨?_, fun r hr => ?_⟩
      · simp only [setQueue, setCell]; rw [hcell p h3]; exact h3
      · simp only [setQueue, setCell] at hr
        split at hr
        · rcases List.mem_append.1 hr with hr | hr
          · exact h4 q ((hsub p).1 hr).1
          · rw [List.mem_singleton.1 hr] at h3; exact h3 hnc
        · exact h4 r hr
    · simp only [events, setQueue, setCell, if_true]
      rw [Queue.insert, if_neg (by rw [hs]; simp), ← h2, List.filterMap_append]
      congr 1
      · exact filterMap_congr' (fun p hp => hcell p (h.live q p ((hsub p).1 hp).1))
      · simp
    · intro p hp; simp only [setQueue, setCell]; exact hcell p hp
    · intro p hp hm
      simp only [setQueue, setCell, if_true]
      exact List.mem_append.2 (.inl ((hsub p).2 ⟨hp, hm⟩))
    · intro p l hl hm
      simp only [setQueue, setCell, if_true, hl, List.filter_cons, hm, Bool.not_false]
      exact ⟨_, rfl⟩
    · intro p
      constructor
      · rintro ⟨h3, h4⟩
        have hpn : p ≠ s.next := by
          rintro rfl
          have := h4 q
          simp [setQueue, setCell] at this
        simp only [setQueue, setCell, if_neg hpn] at h3
        by_cases hp : p ∈ s.queues q
        · cases hm : superseded s.cell e p with
          | true => exact .inr ⟨hp, rfl⟩
          | false =>
            have := h4 q
            simp only [setQueue, setCell, if_true] at this
            exact absurd (List.mem_append.2 (.inl ((hsub p).2 ⟨hp, hm⟩))) this
        · refine .inl ⟨h3, fun r hr => ?_⟩
          have := h4 r
          simp only [setQueue, setCell] at this
          split at this
          · rename_i hx; exact hp (hx ▸ hr)
          · exact this hr
      · rintro (⟨h3, h4⟩ | ⟨h3, h4⟩)
        · refine ⟨by simp only [setQueue, setCell]; rw [hcell p h3]; exact h3, fun r hr => ?_⟩
          simp only [setQueue, setCell] at hr
          split at hr
          · rcases List.mem_append.1 hr with hr | hr
            · exact h4 q ((hsub p).1 hr).1
            · rw [List.mem_singleton.1 hr] at h3; exact h3 hnc
          · exact h4 r hr
        · refine ⟨by simp only [setQueue, setCell]; rw [hcell p (h.live q p h3)]; exact h.live q p h3, fun r hr => ?_⟩
          simp only [setQueue, setCell] at hr
          split at hr
          · rcases List.mem_append.1 hr with hr | hr
            · have := ((hsub p).1 hr).2; rw [h4] at this; cases this
            · exact hne q p h3 (List.mem_singleton.1 hr)
          · rename_i hx; exact hx (h.disj r q p hr h3)

/-- arrivals -/
theorem arrive_spec {q p : Nat} {cur : Event} (es : List Event) {s : QW} (h : QInv s) (hq : s.life q = .alive) {l : List Nat}
    (hl : s.queues q = p :: l) (hp : s.cell p = some cur) :
    match Queue.arrive cur es (s.events q) with
    | none => arrive q cur es s = .ub "flush: erased iterator"
    | some L => ∃ t, arrive q cur es s = .ok () t ∧ Keeps q s t ∧ t.events q = L ∧ t.processed = s.processed ∧
        (∃ l', t.queues q = p :: l') ∧ t.cell p = some cur ∧
        ((∀ e ∈ es, ∀ x, Event.mergeable x e = false) → ∀ p, Leaked t p ↔ Leaked s p) := by
  induction es generalizing s l with
  | nil => exact ⟨s, rfl, .refl h, rfl, rfl, ⟨l, hl⟩, hp, fun _ _ => Iff.rfl⟩
  | cons e es ih =>
    simp only [Queue.arrive, arrive]
    by_cases hm : cur.mergeable e
    · simp [hm]
    · simp only [hm, Bool.false_eq_true, if_false]
      obtain ⟨t, h1, h2, h3, h4, h5, -, h6, h7⟩ := notify_spec h hq e
      have hsu : superseded s.cell e p = false := by simp [superseded, hp, hm]
      obtain ⟨l', hl'⟩ := h6 p l hl hsu
      have hp' : t.cell p = some cur := (h5 p (by rw [hp]; simp)).trans hp
      rw [h1]
      have := ih h2.inv (by rw [h2.life]; exact hq) hl' hp'
      rw [h3] at this
      revert this
      cases Queue.arrive cur es (Queue.insert e (s.events q)) with
      | none => exact fun x => x
      | some L =>
        rintro ⟨u, k1, k2, k3, k4, k5, k6, k7⟩
        refine ⟨u, k1, h2.trans k2, k3, k4.trans h4, k5, k6, fun hx x => ?_⟩
        rw [k7 (fun y hy => hx y (by simp [hy])), h7]
        refine ⟨fun hh => hh.resolve_right ?_, .inl⟩
        rintro ⟨-, hh⟩
        simp only [superseded] at hh
        cases hc : s.cell x with
        | none => rw [hc] at hh; cases hh
        | some y => rw [hc, Option.any_some, hx e (by simp) y] at hh; cases hh

theorem addProcessed_inv {s : QW} (h : QInv s) (q : Nat) (x : Event) : QInv (s.addProcessed q x) :=
  ⟨h.fresh, h.live, h.nodup, h.disj, h.dead⟩

/-- the front is erased and deleted -/
theorem pop_keeps {s : QW} (h : QInv s) {q p : Nat} (hq : s.life q = .alive) {l : List Nat} (hl : s.queues q = p :: l) :
    Keeps q s ((s.setQueue q l).setCell p none) ∧ ((s.setQueue q l).setCell p none).events q = (s.events q).tail ∧
    ∀ x, Leaked ((s.setQueue q l).setCell p none) x ↔ Leaked s x := by
  have hnd := h.nodup q
  rw [hl] at hnd
  have hpl : p ∉ l := (List.nodup_cons.1 hnd).1
  have hmem : p ∈ s.queues q := by rw [hl]; simp
  have hne : ∀ r, r ≠ q → ∀ x ∈ s.queues r, x ≠ p := by
    rintro r hr x hx rfl
    exact hr (h.disj r q x hx hmem)
  have hle : ∀ x, Leaked ((s.setQueue q l).setCell p none) x ↔ Leaked s x := by
    intro x
    constructor
    · rintro ⟨h1, h2⟩
      simp only [setQueue, setCell] at h1 h2
      have hxp : x ≠ p := by rintro rfl; simp at h1
      rw [if_neg hxp] at h1
      refine ⟨h1, fun r hr => ?_⟩
      have := h2 r
      split at this
      · rename_i hx
        rw [hx, hl] at hr
        rcases List.mem_cons.1 hr with hr | hr
        · exact hxp hr
        · exact this hr
      · exact this hr
    · rintro ⟨h1, h2⟩
      have hxp : x ≠ p := by rintro rfl; exact h2 q hmem
      refine ⟨by simp only [setQueue, setCell, if_neg hxp]; exact h1, fun r hr => ?_⟩
      simp only [setQueue, setCell] at hr
      split at hr
      · exact h2 q (by rw [hl]; simp [hr])
      · exact h2 r hr
  refine ⟨⟨⟨?_, ?_, ?_, ?_, ?_⟩, ?_, ?_, rfl, fun _ _ => rfl, Nat.le_refl _, fun x hx => (hle x).2 hx⟩, ?_, hle⟩
  · intro x hx
    simp only [setQueue, setCell] at hx
    split at hx
    · exact absurd rfl hx
    · exact h.fresh x hx
  · intro r x hx
    simp only [setQueue, setCell] at hx ⊢
    split at hx
    · rw [if_neg (by rintro rfl; exact hpl hx)]
      exact h.live q x (by rw [hl]; simp [hx])
    · rename_i hr
      rw [if_neg (hne r hr x hx)]
      exact h.live r x hx
  · intro r
    simp only [setQueue, setCell]
    split
    · exact (List.nodup_cons.1 hnd).2
    · exact h.nodup r
  · intro r r' x h3 h4
    simp only [setQueue, setCell] at h3 h4
    have g : ∀ r, x ∈ (if r = q then l else s.queues r) → x ∈ s.queues r := by
      intro r hr
      split at hr
      · rename_i hx; rw [hx, hl]; simp [hr]
      · exact hr
    exact h.disj r r' x (g r h3) (g r' h4)
  · intro r hr
    simp only [setQueue, setCell] at hr ⊢
    split
    · rename_i hx; rw [hx] at hr; exact absurd hq hr
    · exact h.dead r hr
  · intro r hr; simp [setQueue, setCell, hr]
  · intro r hr
    simp only [setQueue, setCell, events, hr, if_false]
    exact filterMap_congr' (fun x hx => by rw [if_neg (hne r hr x hx)])
  · simp only [setQueue, setCell, events, if_true]
    cases hc : s.cell p with
    | none => exact absurd hc (h.live q p hmem)
    | some c =>
      rw [hl, List.filterMap_cons, hc]
      simp only [List.tail_cons]
      exact filterMap_congr' (fun x hx => by rw [if_neg (by rintro rfl; exact hpl hx)])

theorem flush_spec (env : QEnv) {q : Nat} (n : Nat) {s : QW} (h : QInv s) (hq : s.life q = .alive) :
    match Queue.flush env n ⟨s.events q, s.processed q⟩ with
    | .ok _ Q => ∃ t, flush env q n s = .ok () t ∧ Keeps q s t ∧ ⟨t.events q, t.processed q⟩ = Q ∧
        ((∀ l, ∀ e ∈ (env l).1, ∀ x, Event.mergeable x e = false) → ∀ p, Leaked t p ↔ Leaked s p)
    | .throw x Q => ∃ t, flush env q n s = .throw x t ∧ Keeps q s t ∧ ⟨t.events q, t.processed q⟩ = Q ∧
        ((∀ l, ∀ e ∈ (env l).1, ∀ x, Event.mergeable x e = false) → ∀ p, Leaked t p ↔ Leaked s p)
    | .ub r => flush env q n s = .ub r := by
  induction n generalizing s with
  | zero =>
    cases hl : s.queues q with
    | nil =>
      have he : s.events q = [] := by simp [events, hl]
      unfold Queue.flush flush
      simp only [he, hl]
      exact ⟨s, rfl, .refl h, by rw [he], fun _ _ => Iff.rfl⟩
    | cons p l =>
      cases hc : s.cell p with
      | none => exact absurd hc (h.live q p (by rw [hl]; simp))
      | some c =>
        have he : s.events q = c :: l.filterMap s.cell := by simp [events, hl, hc]
        unfold Queue.flush flush
        simp only [he, hl]
  | succ n ih =>
    cases hl : s.queues q with
    | nil =>
      have he : s.events q = [] := by simp [events, hl]
      unfold Queue.flush flush
      simp only [he, hl]
      exact ⟨s, rfl, .refl h, by rw [he], fun _ _ => Iff.rfl⟩
    | cons p l =>
      cases hc : s.cell p with
      | none => exact absurd hc (h.live q p (by rw [hl]; simp))
      | some c =>
        have he : s.events q = c :: l.filterMap s.cell := by simp [events, hl, hc]
        unfold Queue.flush flush
        simp only [he, hl, hc]
        have h0 : QInv (s.addProcessed q c) := addProcessed_inv h q c
        have hk0 : Keeps q s (s.addProcessed q c) :=
          ⟨h0, fun _ _ => rfl, fun _ _ => rfl, rfl, fun r hr => by simp [addProcessed, hr], Nat.le_refl _, fun _ hp => hp⟩
        have := arrive_spec (q := q) (p := p) (cur := c) (env (s.processed q ++ [c])).1 h0 hq hl hc
        rw [show (s.addProcessed q c).events q = c :: l.filterMap s.cell from he] at this
        revert this
        cases Queue.arrive c (env (s.processed q ++ [c])).1 (c :: l.filterMap s.cell) with
        | none => intro this; simp only at this; rw [this]
        | some L =>
          rintro ⟨t, h1, h2, h3, h4, ⟨l', h5⟩, h6, h7⟩
          simp only [h1]
          have hproc : t.processed q = s.processed q ++ [c] := by rw [h4]; simp [addProcessed]
          have hlk : (∀ l, ∀ e ∈ (env l).1, ∀ x, Event.mergeable x e = false) → ∀ x, Leaked t x ↔ Leaked s x :=
            fun hx x => (h7 (hx _) x).trans Iff.rfl
          cases (env (s.processed q ++ [c])).2 with
          | true =>
            simp only [if_true]
            exact ⟨t, rfl, hk0.trans h2, by rw [h3, hproc], hlk⟩
          | false =>
            simp only [Bool.false_eq_true, if_false]
            obtain ⟨k1, k2, k3⟩ := pop_keeps h2.inv (by rw [h2.life]; exact hq) h5
            rw [show (t.queues q).tail = l' by rw [h5]; rfl]
            have := ih (s := (t.setQueue q l').setCell p none) k1.inv (by rw [k1.life, h2.life]; exact hq)
            rw [k2, h3, show ((t.setQueue q l').setCell p none).processed q = s.processed q ++ [c] from hproc] at this
            revert this
            cases Queue.flush env n ⟨L.tail, s.processed q ++ [c]⟩ with
            | ub r => exact fun x => x
            | ok _ Q =>
              rintro ⟨u, j1, j2, j3, j4⟩
              exact ⟨u, j1, (hk0.trans h2).trans (k1.trans j2), j3, fun hx x => (j4 hx x).trans ((k3 x).trans (hlk hx x))⟩
            | throw y Q =>
              rintro ⟨u, j1, j2, j3, j4⟩
              exact ⟨u, j1, (hk0.trans h2).trans (k1.trans j2), j3, fun hx x => (j4 hx x).trans ((k3 x).trans (hlk hx x))⟩

end QW
end Verif

namespace Verif
namespace QW

/-- what a program without copies of queues has reached -/
structure PInv (env : Nat → QEnv) (n : Nat) (os : List QOp) (s : QW) : Prop where
  inv : QInv s
  unborn : ∀ q, s.life q = .unborn ↔ .make q ∉ os
  dead : ∀ q, s.life q = .dead ↔ .destroy q ∈ os
  early : ∀ q, s.life q = .unborn → os.flatMap (QOp.calls q) = [] ∧ s.processed q = []
  live : ∀ q, s.life q = .alive →
    Queue.run (env q) n (os.flatMap (QOp.calls q)) Queue.init = some ⟨s.events q, s.processed q⟩

theorem init_pinv (env : Nat → QEnv) (n : Nat) : PInv env n [] init :=
  ⟨init_qinv, by simp [init], by simp [init], by simp [init], by simp [init]⟩

theorem PInv.alive_iff {env : Nat → QEnv} {n : Nat} {os : List QOp} {s : QW} (h : PInv env n os s) (q : Nat) :
    s.life q = .alive ↔ .make q ∈ os ∧ .destroy q ∉ os := by
  have h1 := h.unborn q
  have h2 := h.dead q
  cases hx : s.life q <;> simp_all

theorem queueRun_append (env : QEnv) (n : Nat) (cs cs' : List Queue.Cmd) (Q : Queue) :
    Queue.run env n (cs ++ cs') Q = (Queue.run env n cs Q).bind (Queue.run env n cs') := by
  induction cs generalizing Q with
  | nil => rfl
  | cons c cs ih =>
    cases c with
    | notify e => exact ih _
    | flush =>
      simp only [List.cons_append, Queue.run]
      cases Queue.flush env n Q with
      | ok _ Q' => exact ih _
      | throw _ Q' => exact ih _
      | ub r => rfl

/-- a call of queue `q` leaves the invariant of the others alone -/
theorem PInv.call {env : Nat → QEnv} {n : Nat} {os : List QOp} {s t : QW} (h : PInv env n os s) {q : Nat} (hq : s.life q = .alive)
    (k : Keeps q s t) {o : QOp} (ho : (∃ e, o = .notify q e) ∨ o = .flush q)
    (hr : Queue.run (env q) n (o.calls q) ⟨s.events q, s.processed q⟩ = some ⟨t.events q, t.processed q⟩) :
    PInv env n (os ++ [o]) t := by
  have hc : ∀ r, r ≠ q → o.calls r = [] := by
    intro r hrq
    rcases ho with ⟨e, rfl⟩ | rfl <;> simp [QOp.calls, Ne.symm hrq]
  have hm : ∀ r, .make r ∈ os ++ [o] ↔ .make r ∈ os := by
    intro r
    rcases ho with ⟨e, rfl⟩ | rfl <;> simp
  have hd : ∀ r, .destroy r ∈ os ++ [o] ↔ .destroy r ∈ os := by
    intro r
    rcases ho with ⟨e, rfl⟩ | rfl <;> simp
  refine ⟨k.inv, fun r => by rw [k.life, hm]; exact h.unborn r, fun r => by rw [k.life, hd]; exact h.dead r, ?_, ?_⟩
  · intro r hru
    rw [k.life] at hru
    have hrq : r ≠ q := by rintro rfl; rw [hq] at hru; cases hru
    rw [List.flatMap_append, (h.early r hru).1, k.proc r hrq]
    exact ⟨by simp [hc r hrq], (h.early r hru).2⟩
  · intro r hra
    rw [k.life] at hra
    rw [List.flatMap_append, queueRun_append, h.live r hra]
    simp only [Option.bind_some, List.flatMap_cons, List.flatMap_nil, List.append_nil]
    by_cases hrq : r = q
    · subst hrq; exact hr
    · rw [hc r hrq, k.evs r hrq, k.proc r hrq]; rfl

theorem setLife_inv {s : QW} (h : QInv s) {q : Nat} {x : Life} :
    QInv ((s.setLife q x).setQueue q []) := by
  have g : ∀ r p, p ∈ (if r = q then [] else s.queues r) → p ∈ s.queues r := by
    intro r p hp
    split at hp
    · cases hp
    · exact hp
  refine ⟨h.fresh, fun r p hp => h.live r p (g r p hp), fun r => ?_, fun r r' p h1 h2 => h.disj r r' p (g r p h1) (g r' p h2), fun r hr => ?_⟩
  · simp only [setQueue, setLife]
    split
    · exact List.nodup_nil
    · exact h.nodup r
  · simp only [setQueue, setLife] at hr ⊢
    split
    · rfl
    · rename_i hx; rw [if_neg hx] at hr; exact h.dead r hr

/-- The result of a proper operation: it is defined, unless it is a flush that is undefined for the values of the events already. -/
theorem step_pinv {env : Nat → QEnv} {n : Nat} {os : List QOp} {s : QW} (h : PInv env n os s) {o : QOp} (ho : o.Proper os) :
    match s.step env n o with
    | .ok _ t => PInv env n (os ++ [o]) t
    | .throw _ t => PInv env n (os ++ [o]) t
    | .ub r => ∃ q, o = .flush q ∧ Queue.flush (env q) n ⟨s.events q, s.processed q⟩ = .ub r := by
  cases o with
  | copy q r => cases ho
  | make q =>
    have hu : s.life q = .unborn := (h.unborn q).2 ho
    simp only [step, hu, if_true]
    have hcall : ∀ r, (os ++ [QOp.make q]).flatMap (QOp.calls r) = os.flatMap (QOp.calls r) := by
      intro r; simp [List.flatMap_append, QOp.calls]
    refine ⟨setLife_inv h.inv, fun r => ?_, fun r => ?_, fun r hr => ?_, fun r hr => ?_⟩
    · simp only [setQueue, setLife]
      by_cases hrq : r = q
      · simp [hrq]
      · simp [hrq, h.unborn r]
    · simp only [setQueue, setLife]
      by_cases hrq : r = q
      · have hx : .destroy q ∉ os := by
          rw [← h.dead q, hu]; simp
        simp [hrq, hx]
      · simp [hrq, h.dead r]
    · simp only [setQueue, setLife] at hr
      split at hr
      · cases hr
      · rw [hcall]; exact h.early r hr
    · simp only [setQueue, setLife] at hr
      rw [hcall]
      by_cases hrq : r = q
      · subst hrq
        rw [(h.early r hu).1]
        simp [Queue.run, Queue.init, events, setQueue, setLife, (h.early r hu).2]
      · rw [if_neg hrq] at hr
        rw [h.live r hr]
        simp [events, setQueue, setLife, hrq]
  | destroy q =>
    have ha : s.life q = .alive := (h.alive_iff q).2 ho
    simp only [step, ha, if_true]
    have hcall : ∀ r, (os ++ [QOp.destroy q]).flatMap (QOp.calls r) = os.flatMap (QOp.calls r) := by
      intro r; simp [List.flatMap_append, QOp.calls]
    refine ⟨setLife_inv h.inv, fun r => ?_, fun r => ?_, fun r hr => ?_, fun r hr => ?_⟩
    · simp only [setQueue, setLife]
      by_cases hrq : r = q
      · simp [hrq, ho.1]
      · simp [hrq, h.unborn r]
    · simp only [setQueue, setLife]
      by_cases hrq : r = q
      · simp [hrq]
      · simp [hrq, h.dead r]
    · simp only [setQueue, setLife] at hr
      split at hr
      · cases hr
      · rw [hcall]; exact h.early r hr
    · simp only [setQueue, setLife] at hr
      rw [hcall]
      split at hr
      · cases hr
      · rename_i hrq
        rw [h.live r hr]
        simp [events, setQueue, setLife, hrq]
  | notify q e =>
    have ha : s.life q = .alive := (h.alive_iff q).2 ho
    simp only [step, ha, if_true]
    obtain ⟨t, h1, h2, h3, h4, -⟩ := notify_spec h.inv ha e
    rw [h1]
    refine h.call ha h2 (.inl ⟨e, rfl⟩) ?_
    simp [QOp.calls, Queue.run, Queue.notify, h3, h4]
  | flush q =>
    have ha : s.life q = .alive := (h.alive_iff q).2 ho
    simp only [step, ha, if_true]
    have := flush_spec (env q) n h.inv ha
    revert this
    cases hf : Queue.flush (env q) n ⟨s.events q, s.processed q⟩ with
    | ok _ Q =>
      rintro ⟨t, h1, h2, h3, -⟩
      rw [h1]
      refine h.call ha h2 (.inr rfl) ?_
      simp [QOp.calls, Queue.run, hf, h3]
    | throw _ Q =>
      rintro ⟨t, h1, h2, h3, -⟩
      rw [h1]
      refine h.call ha h2 (.inr rfl) ?_
      simp [QOp.calls, Queue.run, hf, h3]
    | ub r =>
      intro h1
      simp only at h1
      rw [h1]
      exact ⟨q, rfl, hf⟩

theorem run_pinv {env : Nat → QEnv} {n : Nat} {os os' : List QOp} {s t : QW} (i : PInv env n os s) (hp : ∀ o ∈ os', o.plain) (hr : run env n os' s = some t) :
    PInv env n (os ++ os') t := by
  induction os' generalizing os s with
  | nil => simp only [run, Option.some.injEq] at hr; subst hr; simpa using i
  | cons o os' ih =>
    have ho : (∃ r, s.step env n o = .ub r) ∨ o.Proper os := by
      have hpl := hp o (by simp)
      cases o with
      | copy q r => cases hpl
      | make q =>
        by_cases hx : s.life q = .unborn
        · exact .inr ((i.unborn q).1 hx)
        · exact .inl ⟨_, by simp [step, hx]; rfl⟩
      | notify q e =>
        by_cases hx : s.life q = .alive
        · exact .inr ((i.alive_iff q).1 hx)
        · exact .inl ⟨_, by simp [step, hx]; rfl⟩
      | flush q =>
        by_cases hx : s.life q = .alive
        · exact .inr ((i.alive_iff q).1 hx)
        · exact .inl ⟨_, by simp [step, hx]; rfl⟩
      | destroy q =>
        by_cases hx : s.life q = .alive
        · exact .inr ((i.alive_iff q).1 hx)
        · exact .inl ⟨_, by simp [step, hx]; rfl⟩
    rcases ho with ⟨r, ho⟩ | ho
    · simp [run, ho] at hr
    · have := step_pinv i ho
      simp only [run] at hr
      revert hr this
      cases s.step env n o with
      | ub r => intro hr; cases hr
      | ok _ u =>
        intro hr this
        simpa using ih this (fun o' ho' => hp o' (by simp [ho'])) hr
      | throw _ u =>
        intro hr this
        simpa using ih this (fun o' ho' => hp o' (by simp [ho'])) hr

/-- a flush that returns leaves an empty queue -/
theorem flush_ok_empty {env : QEnv} {n : Nat} {Q Q' : Queue} (h : Queue.flush env n Q = .ok () Q') : Q'.events = [] := by
  induction n generalizing Q with
  | zero =>
    unfold Queue.flush at h
    split at h
    · rename_i hx; cases h; exact hx
    · cases h
  | succ n ih =>
    unfold Queue.flush at h
    split at h
    · rename_i hx; cases h; exact hx
    · dsimp only at h
      split at h
      · cases h
      · split at h
        · cases h
        · exact ih h

/-! ## any state, also after copies: a deleted event stays deleted -/

theorem notify_gone {q : Nat} {e : Event} {s t : QW} (h : notify q e s = .ok () t) :
    s.next ≤ t.next ∧ (∀ p, p < s.next → s.cell p = none → t.cell p = none) ∧ (∀ r, r ≠ q → t.queues r = s.queues r) ∧ t.life = s.life := by
  unfold notify at h
  split at h
  · cases h
  · cases h
    exact ⟨Nat.le_refl _, fun _ _ h => h, fun r hr => by simp [setQueue, hr], rfl⟩
  · cases h
    refine ⟨Nat.le_succ _, fun p hp hc => ?_, fun r hr => by simp [setQueue, setCell, hr], rfl⟩
    simp only [setQueue, setCell]
    rw [if_neg (by omega)]
    exact hc

theorem notify_no_throw {q : Nat} {e : Event} {s t : QW} {x : Exn} : notify q e s ≠ .throw x t := by
  unfold notify
  split <;> intro h <;> cases h

theorem arrive_gone {q : Nat} {cur : Event} {es : List Event} {s t : QW} (h : arrive q cur es s = .ok () t) :
    s.next ≤ t.next ∧ (∀ p, p < s.next → s.cell p = none → t.cell p = none) ∧ (∀ r, r ≠ q → t.queues r = s.queues r) ∧ t.life = s.life := by
  induction es generalizing s with
  | nil => cases h; exact ⟨Nat.le_refl _, fun _ _ h => h, fun _ _ => rfl, rfl⟩
  | cons e es ih =>
    unfold arrive at h
    split at h
    · cases h
    · split at h
      · rename_i u hu
        obtain ⟨a, b, c, d⟩ := notify_gone hu
        obtain ⟨a', b', c', d'⟩ := ih h
        exact ⟨Nat.le_trans a a', fun p hp hc => b' p (by omega) (b p hp hc), fun r hr => (c' r hr).trans (c r hr), d'.trans d⟩
      · cases h
      · cases h

theorem flush_gone {env : QEnv} {q : Nat} {n : Nat} {s t : QW} (h : flush env q n s = .ok () t) :
    s.next ≤ t.next ∧ (∀ p, p < s.next → s.cell p = none → t.cell p = none) ∧ (∀ r, r ≠ q → t.queues r = s.queues r) ∧
    t.life = s.life ∧ ∀ p, (s.queues q).head? = some p → p < s.next → t.cell p = none := by
  induction n generalizing s with
  | zero =>
    unfold flush at h
    split at h
    · rename_i hx; cases h; exact ⟨Nat.le_refl _, fun _ _ h => h, fun _ _ => rfl, rfl, by simp [hx]⟩
    · cases h
  | succ n ih =>
    unfold flush at h
    split at h
    · rename_i hx; cases h; exact ⟨Nat.le_refl _, fun _ _ h => h, fun _ _ => rfl, rfl, by simp [hx]⟩
    · rename_i p l hx
      dsimp only at h
      split at h
      · cases h
      · split at h
        · cases h
        · cases h
        · rename_i u hu
          split at h
          · cases h
          · obtain ⟨a, b, c, d⟩ := arrive_gone hu
            obtain ⟨a', b', c', d', -⟩ := ih h
            have a : s.next ≤ u.next := a
            have a' : u.next ≤ t.next := a'
            refine ⟨Nat.le_trans a a', fun x hxx hc => b' x (Nat.lt_of_lt_of_le hxx a) ?_, fun r hr => (c' r hr).trans ?_, d'.trans d, ?_⟩
            · have := b x hxx hc
              simp only [setCell, setQueue]
              split
              · rfl
              · exact this
            · simp only [setCell, setQueue, if_neg hr]
              exact c r hr
            · intro x h1 h2
              rw [hx] at h1
              simp only [List.head?_cons, Option.some.injEq] at h1
              subst h1
              exact b' p (Nat.lt_of_lt_of_le h2 a) (by simp [setCell])

theorem qrun_append (env : Nat → QEnv) (n : Nat) (os os' : List QOp) (s : QW) :
    run env n (os ++ os') s = (run env n os s).bind (run env n os') := by
  induction os generalizing s with
  | nil => rfl
  | cons o os ih =>
    simp only [List.cons_append, run]
    cases s.step env n o with
    | ok _ t => exact ih _
    | throw _ t => exact ih _
    | ub r => rfl

end QW
end Verif
