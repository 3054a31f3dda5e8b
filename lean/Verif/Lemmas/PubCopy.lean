import Verif.Model.PubCopy
import Verif.Lemmas.Destroy
/-!
# Lemmas about copies of publishers and subscribers
-/
set_option linter.unusedSectionVars false
set_option linter.unusedSimpArgs false

namespace Verif
open PW

variable {env : PEnv} (hp : env.Passive)
include hp

/-- Like `SubInv`, but a subscriber may point to a publisher that does not know it. -/
structure WeakInv (h : List Act) (w : PW) : Prop where
  subs : ∀ p, (w.pubs p).subscribers = subscribedTo p h
  inside : ∀ p, (w.pubs p).insideNotify = false
  toSub : ∀ p, (w.pubs p).toBeSubscribed = []
  toUnsub : ∀ p, (w.pubs p).toBeUnsubscribed = []
  enab : ∀ p, (w.pubs p).enabled = eventsEnabled p h
  ptr : ∀ s p, s ∈ subscribedTo p h → w.ptr s = some p
  dead : ∀ s, s ∈ w.deadSubs ↔ ∃ h1 h2, h = h1 ++ Act.destroySub s :: h2
  deadNo : ∀ s p, s ∈ w.deadSubs → s ∉ subscribedTo p h
  pubsAlive : w.deadPubs = []

omit hp in
theorem WeakInv.init : WeakInv [] PW.init where
  subs _ := rfl
  inside _ := rfl
  toSub _ := rfl
  toUnsub _ := rfl
  enab _ := rfl
  ptr s p := by simp [PW.init, subscribedTo]
  dead s := by simp [PW.init]
  deadNo s p h := by simp [PW.init] at h
  pubsAlive := rfl

omit hp in
theorem WeakInv.logOnly {h : List Act} {w w' : PW} (hi : WeakInv h w) (hl : LogOnly w w') : WeakInv h w' := by
  obtain ⟨l, rfl⟩ := hl
  exact ⟨hi.subs, hi.inside, hi.toSub, hi.toUnsub, hi.enab, hi.ptr, hi.dead, hi.deadNo, hi.pubsAlive⟩

omit hp in
/-- calls that do not change subscriptions -/
theorem WeakInv.neutral {h : List Act} {w w' : PW} {a : Act} (hi : WeakInv h w) (hn : ∀ s, a.concerns s = false)
    (hpub : ∀ p, (w'.pubs p).subscribers = (w.pubs p).subscribers ∧ (w'.pubs p).insideNotify = (w.pubs p).insideNotify ∧
      (w'.pubs p).toBeSubscribed = (w.pubs p).toBeSubscribed ∧ (w'.pubs p).toBeUnsubscribed = (w.pubs p).toBeUnsubscribed)
    (hen : ∀ p, (w'.pubs p).enabled = eventsEnabled p (h ++ [a])) (hptr : w'.ptr = w.ptr) (hd : w'.deadSubs = w.deadSubs)
    (hdp : w'.deadPubs = w.deadPubs) : WeakInv (h ++ [a]) w' := by
  have hs : ∀ p, subscribedTo p (h ++ [a]) = subscribedTo p h := by
    intro p
    rw [subscribedTo_snoc]
    have : lastNew p a = [] := by
      cases a <;> simp only [lastNew]
      rename_i s _ _; have := hn s; simp [Act.concerns] at this
    simp [hn, this]
  refine ⟨fun p => ?_, fun p => ?_, fun p => ?_, fun p => ?_, hen, fun s p => ?_, fun s => ?_, fun s p h1 => ?_, ?_⟩
  · rw [hs, (hpub p).1, hi.subs]
  · rw [(hpub p).2.1, hi.inside]
  · rw [(hpub p).2.2.1, hi.toSub]
  · rw [(hpub p).2.2.2, hi.toUnsub]
  · rw [hs, hptr]; exact hi.ptr s p
  · rw [hd, hi.dead]
    constructor
    · rintro ⟨h1, h2, rfl⟩; exact ⟨h1, h2 ++ [a], by simp⟩
    · rintro ⟨h1, h2, e⟩
      rcases List.eq_nil_or_concat h2 with rfl | ⟨h3, b, rfl⟩
      · have := List.append_inj_right' e (by simp)
        simp at this; subst this; simpa [Act.concerns] using hn s
      · refine ⟨h1, h3, ?_⟩
        have : h ++ [a] = (h1 ++ Act.destroySub s :: h3) ++ [b] := by rw [e]; simp
        exact List.append_inj_left' this (by simp)
  · rw [hs]; rw [hd] at h1; exact hi.deadNo s p h1
  · rw [hdp, hi.pubsAlive]

/-- state after `s` left the publisher that it points to: the subscriptions of everybody else are untouched -/
theorem weak_leave_step {h : List Act} {w : PW} (hi : WeakInv h w) (run : Act → PW → Res PW Unit) (s : SubId) (b : Bool)
    (hs : s ∉ w.deadSubs) :
    ∃ w', leaveOld env (deliver env run) s b w = .ok () w' ∧
      (∀ p, (w'.pubs p).subscribers = (subscribedTo p h).filter (fun t => !decide (t = s)) ∧ (w'.pubs p).insideNotify = false ∧
        (w'.pubs p).toBeSubscribed = [] ∧ (w'.pubs p).toBeUnsubscribed = [] ∧ (w'.pubs p).enabled = eventsEnabled p h) ∧
      w'.ptr = w.ptr ∧ w'.deadSubs = w.deadSubs ∧ w'.deadPubs = [] := by
  have hother : ∀ p, w.ptr s ≠ some p → (subscribedTo p h).filter (fun t => !decide (t = s)) = subscribedTo p h := by
    intro p hne
    refine List.filter_eq_self.2 (fun t ht => ?_)
    have : t ≠ s := fun e => hne (hi.ptr s p (e ▸ ht))
    simp [this]
  unfold leaveOld
  cases hq : w.ptr s with
  | none =>
    refine ⟨w, rfl, fun p => ⟨?_, hi.inside p, hi.toSub p, hi.toUnsub p, hi.enab p⟩, rfl, rfl, hi.pubsAlive⟩
    rw [hother p (by simp [hq]), hi.subs]
  | some q =>
    simp only
    unfold pubUnsubscribe
    rw [if_neg (by simp [hi.pubsAlive])]
    obtain ⟨w1, e1, hl⟩ : ∃ w1, (if b then seqAll (fun e => notifySubscriber (deliver env run) q s e) (env.uncurrent q w.log) w
        else .ok () w) = .ok () w1 ∧ LogOnly w w1 := by
      cases b
      · exact ⟨w, rfl, .refl w⟩
      · exact seq_passive hp run q s _ w hs
    rw [e1]
    have hi1 := hi.logOnly hl
    obtain ⟨l, rfl⟩ := hl
    refine ⟨_, rfl, fun p => ?_, rfl, rfl, hi.pubsAlive⟩
    simp only [PW.setPub]
    by_cases hpq : p = q
    · subst hpq
      have := unsub_eq (x := w.pubs p) s (by rw [hi.subs]; exact subscribedTo_nodup p h) (hi.inside p)
      simp only [if_true]
      refine ⟨?_, this.2.1, ?_, ?_, ?_⟩
      · rw [this.1, hi.subs]
      · rw [this.2.2.1, hi.toSub]
      · rw [this.2.2.2.1, hi.toUnsub]
      · rw [this.2.2.2.2, hi.enab]
    · simp only [hpq, if_false]
      refine ⟨?_, hi.inside p, hi.toSub p, hi.toUnsub p, hi.enab p⟩
      rw [hother p (by rw [hq]; simpa using fun e => hpq e.symm), hi.subs]

/-- One call of the subscriber interface. It is undefined only if it uses a destroyed subscriber. -/
theorem WeakInv.step {h : List Act} {w : PW} (hi : WeakInv h w) (n : Nat) (a : Act) (ha : a.viaSubscriber)
    (hd : ∀ s, a.concerns s → s ∉ w.deadSubs) : ∃ w', act env (n + 1) a w = .ok () w' ∧ WeakInv (h ++ [a]) w' := by
  cases a with
  | pubSubscribe => simp [Act.viaSubscriber] at ha
  | pubUnsubscribe => simp [Act.viaSubscriber] at ha
  | destroyPub => simp [Act.viaSubscriber] at ha
  | fail => simp [Act.viaSubscriber] at ha
  | enable p b =>
    simp only [act, hi.pubsAlive, List.not_mem_nil, if_false]
    refine ⟨_, rfl, hi.neutral (fun s => rfl) (fun q => ?_) (fun q => ?_) rfl rfl rfl⟩
    · simp only [PW.setPub]; split
      · rename_i hq; subst hq; exact ⟨rfl, rfl, rfl, rfl⟩
      · exact ⟨rfl, rfl, rfl, rfl⟩
    · rw [eventsEnabled_snoc]; simp only [PW.setPub]
      by_cases hq : q = p
      · subst hq; simp
      · have : p ≠ q := fun e => hq e.symm
        simp [hq, this, hi.enab]
  | notify p e =>
    simp only [act]
    unfold PW.notify
    rw [if_neg (by simp [hi.pubsAlive])]
    have hen : ∀ q, eventsEnabled q (h ++ [Act.notify p e]) = eventsEnabled q h := fun q => by rw [eventsEnabled_snoc]
    by_cases he : (w.pubs p).enabled
    · rw [if_pos he]
      simp only
      rw [notifyLoop_passive hp]
      · refine ⟨_, rfl, hi.neutral (fun s => rfl) (fun q => ?_) (fun q => ?_) rfl rfl rfl⟩
        · by_cases hq : q = p
          · subst hq
            simp [PW.setPub, notifyEnd, hi.toSub, hi.toUnsub, hi.inside]
          · simp [PW.setPub, hq]
        · rw [hen]
          by_cases hq : q = p
          · subst hq
            simp [PW.setPub, notifyEnd, hi.toSub, hi.toUnsub, hi.enab]
          · simp [PW.setPub, hq, hi.enab]
      · intro s hs hdd
        simp [PW.setPub, hi.subs] at hs
        exact hi.deadNo s p hdd hs
    · rw [if_neg he]
      exact ⟨w, rfl, hi.neutral (fun s => rfl) (fun q => ⟨rfl, rfl, rfl, rfl⟩) (fun q => by rw [hen, hi.enab]) rfl rfl rfl⟩
  | subscribe s p b =>
    have hs : s ∉ w.deadSubs := hd s (by simp [Act.concerns])
    simp only [act]
    unfold subSubscribe
    rw [if_neg hs]
    obtain ⟨w1, e1, hw1, hptr1, hds1, hdp1⟩ := weak_leave_step hp hi (act env n) s b hs
    rw [e1]
    simp only
    unfold pubSubscribe
    rw [if_neg (by simp [PW.setPtr, hdp1])]
    obtain ⟨w2, e2, hl⟩ : ∃ w2, (if b then seqAll (fun e => notifySubscriber (deliver env (act env n)) p s e)
        (env.current p (w1.setPtr s (some p)).log) (w1.setPtr s (some p)) else .ok () (w1.setPtr s (some p))) = .ok () w2 ∧
        LogOnly (w1.setPtr s (some p)) w2 := by
      cases b
      · exact ⟨_, rfl, .refl _⟩
      · exact seq_passive hp _ p s _ _ (by simpa [PW.setPtr, hds1] using hs)
    rw [e2]
    obtain ⟨l, rfl⟩ := hl
    have hfil : ∀ q, (subscribedTo q h).filter (fun t => !(Act.subscribe s p b).concerns t) =
        (subscribedTo q h).filter (fun t => !decide (t = s)) := by
      intro q; congr 1; funext t; simp only [Act.concerns]; by_cases ht : t = s
      · subst ht; simp
      · have : s ≠ t := fun e => ht e.symm
        simp [ht, this]
    refine ⟨_, rfl, fun q => ?_, fun q => ?_, fun q => ?_, fun q => ?_, fun q => ?_, fun t q => ?_, fun t => ?_, fun t q h1 => ?_, ?_⟩
    · rw [subscribedTo_snoc, hfil]
      by_cases hq : q = p
      · subst hq
        simp [PW.setPub, PW.setPtr, enter, (hw1 q).2.1, pushSub, (hw1 q).1, lastNew]
      · have : p ≠ q := fun e => hq e.symm
        simp [PW.setPub, PW.setPtr, hq, (hw1 q).1, lastNew, this]
    · by_cases hq : q = p
      · subst hq; simp [PW.setPub, PW.setPtr, enter, (hw1 q).2.1, pushSub]
      · simp [PW.setPub, PW.setPtr, hq, (hw1 q).2.1]
    · by_cases hq : q = p
      · subst hq; simp [PW.setPub, PW.setPtr, enter, (hw1 q).2.1, pushSub, (hw1 q).2.2.1]
      · simp [PW.setPub, PW.setPtr, hq, (hw1 q).2.2.1]
    · by_cases hq : q = p
      · subst hq; simp [PW.setPub, PW.setPtr, enter, (hw1 q).2.1, pushSub, (hw1 q).2.2.2.1]
      · simp [PW.setPub, PW.setPtr, hq, (hw1 q).2.2.2.1]
    · rw [eventsEnabled_snoc]
      by_cases hq : q = p
      · subst hq; simp [PW.setPub, PW.setPtr, enter, (hw1 q).2.1, pushSub, (hw1 q).2.2.2.2]
      · simp [PW.setPub, PW.setPtr, hq, (hw1 q).2.2.2.2]
    · rw [subscribedTo_snoc, hfil]
      by_cases ht : t = s
      · subst ht
        simp only [PW.setPub, PW.setPtr, if_true, List.mem_append, List.mem_filter, decide_true, Bool.not_true,
          Bool.false_eq_true, and_false, false_or, lastNew]
        by_cases hq : p = q <;> simp [hq]
      · have h2 : t ∉ lastNew q (Act.subscribe s p b) := by
          simp only [lastNew]; split <;> simp [ht]
        have h3 : t ∈ subscribedTo q h → w1.ptr t = some q := by rw [hptr1]; exact hi.ptr t q
        simpa [PW.setPub, PW.setPtr, ht, h2] using h3
    · rw [dead_snoc (by simp), ← hi.dead]
      simp [PW.setPub, PW.setPtr, hds1]
    · rw [subscribedTo_snoc, hfil]
      have hdt : t ∈ w.deadSubs := by simpa [PW.setPub, PW.setPtr, hds1] using h1
      have hts : t ≠ s := fun e => hs (e ▸ hdt)
      have h2 : t ∉ lastNew q (Act.subscribe s p b) := by
          simp only [lastNew]; split <;> simp [hts]
      simp [h2, hi.deadNo t q hdt]
    · simp [PW.setPub, PW.setPtr, hdp1]
  | unsubscribe s =>
    have hs : s ∉ w.deadSubs := hd s (by simp [Act.concerns])
    obtain ⟨w1, e1, hw1, hptr1, hds1, hdp1⟩ := weak_leave_step hp hi (act env n) s false hs
    have hfil : ∀ q, subscribedTo q (h ++ [Act.unsubscribe s]) = (subscribedTo q h).filter (fun t => !decide (t = s)) := by
      intro q; rw [subscribedTo_snoc]; simp only [lastNew, List.append_nil]; congr 1; funext t; simp only [Act.concerns]
      by_cases ht : t = s
      · subst ht; simp
      · have : s ≠ t := fun e => ht e.symm
        simp [ht, this]
    have hact : act env (n + 1) (.unsubscribe s) w = .ok () (w1.setPtr s none) := by
      simp only [act]
      unfold subUnsubscribe
      rw [if_neg hs]
      cases hq : w.ptr s with
      | none =>
        simp only [leaveOld, hq] at e1
        simp only [Res.ok.injEq, true_and] at e1
        subst e1
        have : w.setPtr s none = w := by
          unfold PW.setPtr
          have : (fun t => if t = s then none else w.ptr t) = w.ptr := by
            funext t; split
            · rename_i ht; rw [ht, hq]
            · rfl
          rw [this]
        rw [this]
      | some q => simp only [leaveOld, hq] at e1; simp only; rw [e1]
    refine ⟨_, hact, fun q => ?_, fun q => (hw1 q).2.1, fun q => (hw1 q).2.2.1, fun q => (hw1 q).2.2.2.1, fun q => ?_, fun t q => ?_,
      fun t => ?_, fun t q h1 => ?_, hdp1⟩
    · rw [hfil]; exact (hw1 q).1
    · rw [eventsEnabled_snoc]; exact (hw1 q).2.2.2.2
    · rw [hfil]
      by_cases ht : t = s
      · subst ht; simp [PW.setPtr]
      · simp only [PW.setPtr, ht, if_false, hptr1]; simpa [ht] using hi.ptr t q
    · rw [dead_snoc (by simp), ← hi.dead]; simp [PW.setPtr, hds1]
    · rw [hfil]
      have hdt : t ∈ w.deadSubs := by simpa [PW.setPtr, hds1] using h1
      simp [hi.deadNo t q hdt]
  | destroySub s =>
    have hs : s ∉ w.deadSubs := hd s (by simp [Act.concerns])
    obtain ⟨w1, e1, hw1, hptr1, hds1, hdp1⟩ := weak_leave_step hp hi (act env n) s false hs
    have hfil : ∀ q, subscribedTo q (h ++ [Act.destroySub s]) = (subscribedTo q h).filter (fun t => !decide (t = s)) := by
      intro q; rw [subscribedTo_snoc]; simp only [lastNew, List.append_nil]; congr 1; funext t; simp only [Act.concerns]
      by_cases ht : t = s
      · subst ht; simp
      · have : s ≠ t := fun e => ht e.symm
        simp [ht, this]
    have hact : act env (n + 1) (.destroySub s) w = .ok () { w1.setPtr s none with deadSubs := s :: w1.deadSubs } := by
      simp only [act]
      unfold subUnsubscribe
      rw [if_neg hs]
      cases hq : w.ptr s with
      | none =>
        simp only [leaveOld, hq] at e1
        simp only [Res.ok.injEq, true_and] at e1
        subst e1
        have : w.setPtr s none = w := by
          unfold PW.setPtr
          have : (fun t => if t = s then none else w.ptr t) = w.ptr := by
            funext t; split
            · rename_i ht; rw [ht, hq]
            · rfl
          rw [this]
        rw [this]
      | some q => simp only [leaveOld, hq] at e1; simp only; rw [e1]; rfl
    refine ⟨_, hact, fun q => ?_, fun q => (hw1 q).2.1, fun q => (hw1 q).2.2.1, fun q => (hw1 q).2.2.2.1, fun q => ?_, fun t q => ?_,
      fun t => ?_, fun t q h1 => ?_, hdp1⟩
    · rw [hfil]; exact (hw1 q).1
    · rw [eventsEnabled_snoc]; exact (hw1 q).2.2.2.2
    · rw [hfil]
      by_cases ht : t = s
      · subst ht; simp [PW.setPtr]
      · simp only [PW.setPtr, ht, if_false, hptr1]; simpa [ht] using hi.ptr t q
    · by_cases ht : t = s
      · subst ht
        simp only [List.mem_cons, true_or, true_iff]
        exact ⟨h, [], rfl⟩
      · rw [dead_snoc (by simpa using fun e => ht e.symm), ← hi.dead]; simp [PW.setPtr, hds1, ht]
    · rw [hfil]
      by_cases ht : t = s
      · subst ht; simp
      · have hdt : t ∈ w.deadSubs := by simpa [PW.setPtr, hds1, ht] using h1
        simp [hi.deadNo t q hdt]

omit hp in
/-- a copy of a subscriber in the place of one that is not subscribed -/
theorem WeakInv.copySub {h : List Act} {w w' : PW} (hi : WeakInv h w) {s t : SubId} (ht : ∀ p, t ∉ subscribedTo p h)
    (hc : PW.copySub s t w = .ok () w') : WeakInv h w' := by
  unfold PW.copySub at hc
  split at hc
  · cases hc
  · simp only [Res.ok.injEq, true_and] at hc
    subst hc
    refine ⟨hi.subs, hi.inside, hi.toSub, hi.toUnsub, hi.enab, fun x p hx => ?_, hi.dead, hi.deadNo, hi.pubsAlive⟩
    have : x ≠ t := fun e => ht p (e ▸ hx)
    simp only [setPtr, this, if_false]
    exact hi.ptr x p hx

/-- what a notification does under the invariant -/
theorem WeakInv.notify {h : List Act} {w : PW} (hi : WeakInv h w) (n : Nat) (p : PubId) (e : Event) :
    ∃ w', act env (n + 1) (.notify p e) w = .ok () w' ∧
      w'.log = w.log ++ (if eventsEnabled p h then (subscribedTo p h).map (fun s => (s, e)) else []) := by
  show ∃ w', PW.notify (deliver env (act env n)) p e w = .ok () w' ∧ _
  unfold PW.notify
  rw [if_neg (by simp [hi.pubsAlive]), hi.enab]
  by_cases he : eventsEnabled p h
  · rw [if_pos he]
    simp only
    rw [notifyLoop_passive hp]
    · refine ⟨_, rfl, ?_⟩
      simp [setPub, he, hi.subs]
    · intro s hs hd
      simp [setPub, hi.subs] at hs
      exact hi.deadNo s p hd hs
  · rw [if_neg he]
    exact ⟨w, rfl, by simp [he]⟩

omit hp in
theorem SubInv.weak {h : List Act} {w : PW} (hi : SubInv h w) : WeakInv h w :=
  ⟨hi.subs, hi.inside, hi.toSub, hi.toUnsub, hi.enab, fun s p => (hi.ptr s p).2, hi.dead, hi.deadNo, hi.pubsAlive⟩

omit hp in
theorem SubInv.own {h : List Act} {w : PW} (hi : SubInv h w) (p : PubId) : OwnSubs p (subscribedTo p h) w :=
  ⟨hi.subs p, subscribedTo_nodup p h, fun s hs => (hi.ptr s p).2 hs, fun s hs hd => hi.deadNo s p hd hs, hi.inside p,
    by simp [hi.pubsAlive]⟩

omit hp in
/-- The destructor of a copy `q` of the publisher `p`: each subscriber unsubscribes itself from `p`. -/
theorem destroyLoop_copy (env : PEnv) (d : SubId → Event → PW → Res PW Unit) {p q : PubId} (hpq : q ≠ p) (l : List SubId) {w : PW}
    (h : OwnSubs p l w) (hq : (w.pubs q).subscribers = l) (n : Nat) (hn : l.length ≤ n) : ∃ w', destroyLoop env d q n w = .ok () w' ∧
      (w'.pubs p).subscribers = [] ∧ (w'.pubs p).insideNotify = false ∧ (w'.pubs p).enabled = (w.pubs p).enabled ∧
      (w'.pubs p).toBeSubscribed = (w.pubs p).toBeSubscribed ∧ (w'.pubs p).toBeUnsubscribed = (w.pubs p).toBeUnsubscribed ∧
      (∀ r, r ≠ p → r ≠ q → w'.pubs r = w.pubs r) ∧
      (∀ s, w'.ptr s = if s ∈ l then none else w.ptr s) ∧ w'.log = w.log ∧ w'.deadPubs = w.deadPubs ∧ w'.deadSubs = w.deadSubs := by
  induction l using List.reverseRecOn generalizing w n with
  | nil =>
    refine ⟨w, ?_, h.subs, h.inside, rfl, rfl, rfl, fun _ _ _ => rfl, by simp, rfl, rfl, rfl⟩
    unfold destroyLoop; rw [hq]; rfl
  | append_singleton l s ih =>
    obtain ⟨n, rfl⟩ : ∃ m, n = m + 1 := ⟨n - 1, by simp at hn; omega⟩
    have hsub : subUnsubscribe env d s w = .ok () ((w.setPub p (leave s (w.pubs p))).setPtr s none) := by
      unfold subUnsubscribe
      rw [if_neg (h.alive s (by simp)), h.ptr s (by simp)]
      simp [pubUnsubscribe, h.pubAlive]
    have hu := unsub_eq (x := w.pubs p) s (by rw [h.subs]; exact h.nodup) h.inside
    have hnd := h.nodup
    rw [List.nodup_append] at hnd
    have hsl : s ∉ l := fun hm => hnd.2.2 s hm s (by simp) rfl
    have hfil : (l ++ [s]).filter (fun t => !decide (t = s)) = l := by
      rw [List.filter_append]
      have : l.filter (fun t => !decide (t = s)) = l := List.filter_eq_self.2 (fun t ht => by
        have : t ≠ s := fun e => hsl (e ▸ ht)
        simp [this])
      simp [this]
    have hps : (leave s (w.pubs p)).subscribers = l := by rw [hu.1, h.subs, hfil]
    have hpq' : p ≠ q := fun e => hpq e.symm
    obtain ⟨w2, g1, g2, g3, g4, g4a, g4b, g5, g6, g7, g8, g9⟩ := ih
      (w := ((w.setPub p (leave s (w.pubs p))).setPtr s none).setPub q { w.pubs q with subscribers := l })
      ⟨by simp [setPub, setPtr, hpq', hps], hnd.1, (by
        intro x hx
        have hxs : x ≠ s := fun e => hsl (e ▸ hx)
        simp only [setPub, setPtr, hxs, if_false]
        exact h.ptr x (by simp [hx])), (by intro x hx; simpa [setPub, setPtr] using h.alive x (by simp [hx])),
        by simp [setPub, setPtr, hpq', hu.2.1], by simpa [setPub, setPtr] using h.pubAlive⟩ (by simp [setPub, setPtr]) n
        (by simp at hn; omega)
    refine ⟨w2, ?_, g2, g3, ?_, ?_, ?_, ?_, ?_, ?_, ?_, ?_⟩
    · unfold destroyLoop
      rw [hq]
      simp only [List.getLast?_append, List.getLast?_singleton, Option.some_or, hsub]
      have e1 : (((w.setPub p (leave s (w.pubs p))).setPtr s none).pubs q) = w.pubs q := by simp [setPub, setPtr, hpq]
      rw [e1, hq, if_neg (by simp), List.dropLast_concat]
      exact g1
    · rw [g4]; simp [setPub, setPtr, hpq', hu.2.2.2.2]
    · rw [g4a]; simp [setPub, setPtr, hpq', hu.2.2.1]
    · rw [g4b]; simp [setPub, setPtr, hpq', hu.2.2.2.1]
    · intro r h1 h2; rw [g5 r h1 h2]; simp [setPub, setPtr, h1, h2]
    · intro t
      rw [g6]
      by_cases ht : t = s
      · subst ht; simp [setPub, setPtr]
      · simp [setPub, setPtr, ht]
    · rw [g7]; rfl
    · rw [g8]; rfl
    · rw [g9]; rfl

omit hp in
theorem leave_subset (s : SubId) (x : Pub) : ∀ t ∈ (leave s x).subscribers, t ∈ x.subscribers := by
  intro t ht
  unfold leave unsubInternal at ht
  split at ht
  · exact ht
  · split at ht
    · exact List.mem_of_mem_erase ht
    · exact ht

omit hp in
/-- a destructor only changes its own publisher if the subscribers know no other one -/
theorem destroyLoop_other (env : PEnv) (d : SubId → Event → PW → Res PW Unit) {p : PubId} (n : Nat) {w w' : PW}
    (hj : ∀ s ∈ (w.pubs p).subscribers, w.ptr s = some p ∨ w.ptr s = none) (h : destroyLoop env d p n w = .ok () w') (r : PubId)
    (hr : r ≠ p) : w'.pubs r = w.pubs r := by
  induction n generalizing w with
  | zero =>
    unfold destroyLoop at h
    split at h
    · simp only [Res.ok.injEq, true_and] at h; rw [h]
    · cases h
  | succ n ih =>
    unfold destroyLoop at h
    split at h
    · simp only [Res.ok.injEq, true_and] at h; rw [h]
    · rename_i s hs
      have hm := List.mem_of_getLast? hs
      dsimp only at h
      split at h
      · rename_i w1 h1
        split at h
        · cases h
        · unfold subUnsubscribe at h1
          split at h1
          · cases h1
          · rcases hj s hm with hq | hq
            · rw [hq] at h1
              simp only [pubUnsubscribe] at h1
              split at h1
              · rename_i w2 h2
                split at h2
                · cases h2
                · simp only [Bool.false_eq_true, if_false, Res.ok.injEq, true_and] at h1 h2
                  subst h2; subst h1
                  rw [ih _ h]
                  · simp [setPub, setPtr, hr]
                  · intro t ht
                    simp only [setPub, setPtr, if_true] at ht ⊢
                    split
                    · exact .inr rfl
                    · exact hj t (leave_subset _ _ t (List.dropLast_subset _ ht))
              · cases h1
              · cases h1
            · rw [hq] at h1
              simp only [Res.ok.injEq, true_and] at h1
              subst h1
              rw [ih _ h]
              · simp [setPub, hr]
              · intro t ht
                simp only [setPub, if_true] at ht ⊢
                exact hj t (List.dropLast_subset _ ht)
      · cases h
      · cases h

end Verif
