import Verif.Spec.Events
import Mathlib.Data.List.Basic
import Mathlib.Data.List.Nodup
import Mathlib.Data.List.Induction
import Mathlib.Tactic.Common
/-!
# Lemmas about publishers with subscribers that only listen
-/
set_option linter.unusedSectionVars false
set_option linter.unusedSimpArgs false

namespace Verif
open PW

/-! ## the specification `subscribedTo` -/

theorem subscribedTo_concerns {p : PubId} {s : SubId} {h : List Act} (hs : s ∈ subscribedTo p h) : h.any (Act.concerns s) := by
  induction h with
  | nil => simp [subscribedTo] at hs
  | cons a h ih =>
    simp only [List.any_cons, Bool.or_eq_true]
    unfold subscribedTo at hs
    split at hs
    · split at hs
      · rcases List.mem_cons.1 hs with rfl | hs
        · exact .inl (by simp [Act.concerns])
        · exact .inr (ih hs)
      · exact .inr (ih hs)
    · exact .inr (ih hs)

theorem subscribedTo_nodup (p : PubId) (h : List Act) : (subscribedTo p h).Nodup := by
  induction h with
  | nil => simp [subscribedTo]
  | cons a h ih =>
    unfold subscribedTo
    split
    · split
      · rename_i hc
        exact List.nodup_cons.2 ⟨fun hm => hc.2 (subscribedTo_concerns hm), ih⟩
      · exact ih
    · exact ih

theorem subscribedTo_unique {p q : PubId} {s : SubId} {h : List Act} (hp : s ∈ subscribedTo p h) (hq : s ∈ subscribedTo q h) :
    p = q := by
  induction h with
  | nil => simp [subscribedTo] at hp
  | cons a h ih =>
    unfold subscribedTo at hp hq
    split at hp
    · rename_i t r b
      simp only at hq
      split at hp <;> split at hq
      · rename_i h1 h2; exact h1.1.symm.trans h2.1
      · rename_i h1 h2
        rcases List.mem_cons.1 hp with rfl | hp
        · exact absurd (subscribedTo_concerns hq) h1.2
        · exact ih hp hq
      · rename_i h1 h2
        rcases List.mem_cons.1 hq with rfl | hq
        · exact absurd (subscribedTo_concerns hp) h2.2
        · exact ih hp hq
      · exact ih hp hq
    · rename_i hne
      split at hq
      · exact absurd rfl (hne _ _ _)
      · exact ih hp hq

/-- what the last call adds -/
def lastNew (p : PubId) : Act → List SubId
  | .subscribe s q _ => if q = p then [s] else []
  | _ => []

theorem subscribedTo_snoc (p : PubId) (h : List Act) (a : Act) :
    subscribedTo p (h ++ [a]) = (subscribedTo p h).filter (fun s => !a.concerns s) ++ lastNew p a := by
  induction h with
  | nil => cases a <;> simp [subscribedTo, lastNew]
  | cons b h ih =>
    rw [List.cons_append]
    unfold subscribedTo
    split
    · rename_i s q x
      rw [ih]
      simp only [List.any_append, List.any_cons, List.any_nil, Bool.or_false]
      by_cases h1 : q = p
      · by_cases h2 : h.any (Act.concerns s)
        · simp [h1, h2]
        · by_cases h3 : a.concerns s
          · simp [h1, h2, h3]
          · simp [h1, h2, h3]
      · simp [h1]
    · exact ih

theorem eventsEnabled_snoc (p : PubId) (h : List Act) (a : Act) :
    eventsEnabled p (h ++ [a]) = (match a with | .enable q b => if q = p then b else eventsEnabled p h | _ => eventsEnabled p h) := by
  unfold eventsEnabled
  rw [List.reverse_append]
  cases a <;> simp [List.find?]
  rename_i q b
  by_cases hq : q = p <;> simp [hq]

/-! ## passive handlers -/

/-- only the log was extended -/
def LogOnly (w w' : PW) : Prop := ∃ l, w' = { w with log := w.log ++ l }

theorem LogOnly.refl (w : PW) : LogOnly w w := ⟨[], by simp⟩

theorem LogOnly.trans {w w' w'' : PW} (h1 : LogOnly w w') (h2 : LogOnly w' w'') : LogOnly w w'' := by
  obtain ⟨l1, rfl⟩ := h1; obtain ⟨l2, rfl⟩ := h2; exact ⟨l1 ++ l2, by simp⟩

variable {env : PEnv} (hp : env.Passive)
include hp

theorem deliver_passive (run : Act → PW → Res PW Unit) (s : SubId) (e : Event) (w : PW) (hs : s ∉ w.deadSubs) :
    deliver env run s e w = .ok () { w with log := w.log ++ [(s, e)] } := by
  simp [deliver, hs, hp s e, seqAll]

theorem seq_passive (run : Act → PW → Res PW Unit) (p : PubId) (s : SubId) (es : List Event) (w : PW) (hs : s ∉ w.deadSubs) :
    ∃ w', seqAll (fun e => notifySubscriber (deliver env run) p s e) es w = .ok () w' ∧ LogOnly w w' := by
  induction es generalizing w with
  | nil => exact ⟨w, rfl, .refl w⟩
  | cons e es ih =>
    unfold seqAll notifySubscriber
    by_cases he : (w.pubs p).enabled
    · simp only [he, if_true, deliver_passive hp run s e w hs]
      obtain ⟨w', h1, h2⟩ := ih { w with log := w.log ++ [(s, e)] } hs
      exact ⟨w', h1, LogOnly.trans ⟨[(s, e)], rfl⟩ h2⟩
    · simp only [he]
      exact ih w hs

theorem notifyLoop_passive (run : Act → PW → Res PW Unit) (p : PubId) (e : Event) (l : List SubId) (w : PW)
    (hs : ∀ s ∈ l, s ∉ w.deadSubs) :
    notifyLoop (deliver env run) p e (w.pubs p).changes l w = .ok () { w with log := w.log ++ l.map (fun s => (s, e)) } := by
  induction l generalizing w with
  | nil => simp [notifyLoop]
  | cons s l ih =>
    unfold notifyLoop
    rw [deliver_passive hp run s e w (hs s (List.mem_cons_self ..))]
    simp only [if_true]
    rw [ih { w with log := w.log ++ [(s, e)] } (fun t ht => hs t (List.mem_cons_of_mem _ ht))]
    simp

/-- invariant of programs that use the subscriber interface -/
structure SubInv (h : List Act) (w : PW) : Prop where
  subs : ∀ p, (w.pubs p).subscribers = subscribedTo p h
  inside : ∀ p, (w.pubs p).insideNotify = false
  toSub : ∀ p, (w.pubs p).toBeSubscribed = []
  toUnsub : ∀ p, (w.pubs p).toBeUnsubscribed = []
  enab : ∀ p, (w.pubs p).enabled = eventsEnabled p h
  ptr : ∀ s p, w.ptr s = some p ↔ s ∈ subscribedTo p h
  dead : ∀ s, s ∈ w.deadSubs ↔ ∃ h1 h2, h = h1 ++ Act.destroySub s :: h2
  deadNo : ∀ s p, s ∈ w.deadSubs → s ∉ subscribedTo p h
  pubsAlive : w.deadPubs = []

omit hp in
theorem SubInv.init : SubInv [] PW.init where
  subs _ := rfl
  inside _ := rfl
  toSub _ := rfl
  toUnsub _ := rfl
  enab _ := rfl
  ptr s p := by simp [PW.init, subscribedTo]
  dead s := by simp [PW.init]
  deadNo s p h := by simp [PW.init] at h
  pubsAlive := rfl

omit hp in
theorem SubInv.logOnly {h : List Act} {w w' : PW} (hi : SubInv h w) (hl : LogOnly w w') : SubInv h w' := by
  obtain ⟨l, rfl⟩ := hl
  exact ⟨hi.subs, hi.inside, hi.toSub, hi.toUnsub, hi.enab, hi.ptr, hi.dead, hi.deadNo, hi.pubsAlive⟩

omit hp in
/-- calls that do not change subscriptions -/
theorem SubInv.neutral {h : List Act} {w w' : PW} {a : Act} (hi : SubInv h w) (hn : ∀ s, a.concerns s = false)
    (hpub : ∀ p, (w'.pubs p).subscribers = (w.pubs p).subscribers ∧ (w'.pubs p).insideNotify = (w.pubs p).insideNotify ∧
      (w'.pubs p).toBeSubscribed = (w.pubs p).toBeSubscribed ∧ (w'.pubs p).toBeUnsubscribed = (w.pubs p).toBeUnsubscribed)
    (hen : ∀ p, (w'.pubs p).enabled = eventsEnabled p (h ++ [a])) (hptr : w'.ptr = w.ptr) (hd : w'.deadSubs = w.deadSubs)
    (hdp : w'.deadPubs = w.deadPubs) : SubInv (h ++ [a]) w' := by
  have hs : ∀ p, subscribedTo p (h ++ [a]) = subscribedTo p h := by
    intro p
    rw [subscribedTo_snoc]
    have : lastNew p a = [] := by
      cases a <;> simp only [lastNew]
      rename_i s _ _; have := hn s; simp [Act.concerns] at this
    simp [hn, this]
  refine ⟨fun p => ?_, fun p => ?_, fun p => ?_, fun p => ?_, hen, fun s p => ?_, fun s => ?_, fun s p h1 => ?_, ?_⟩
  · rw [hs, (hpub p).1, hi.subs]
  · rw [(hpub p).2.1, hi.inside]
  · rw [(hpub p).2.2.1, hi.toSub]
  · rw [(hpub p).2.2.2, hi.toUnsub]
  · rw [hs, hptr, hi.ptr]
  · rw [hd, hi.dead]
    constructor
    · rintro ⟨h1, h2, rfl⟩; exact ⟨h1, h2 ++ [a], by simp⟩
    · rintro ⟨h1, h2, e⟩
      rcases List.eq_nil_or_concat h2 with rfl | ⟨h3, b, rfl⟩
      · have := List.append_inj_right' e (by simp)
        simp at this; subst this; simpa [Act.concerns] using hn s
      · refine ⟨h1, h3, ?_⟩
        have : h ++ [a] = (h1 ++ Act.destroySub s :: h3) ++ [b] := by rw [e]; simp
        exact List.append_inj_left' this (by simp)
  · rw [hs]; rw [hd] at h1; exact hi.deadNo s p h1
  · rw [hdp, hi.pubsAlive]

omit hp in
theorem unsub_eq {x : Pub} (s : SubId) (hn : x.subscribers.Nodup) (hi : x.insideNotify = false) :
    ((leave s x).subscribers = x.subscribers.filter (fun t => !decide (t = s))) ∧ (leave s x).insideNotify = false ∧
      (leave s x).toBeSubscribed = x.toBeSubscribed ∧ (leave s x).toBeUnsubscribed = x.toBeUnsubscribed ∧
      (leave s x).enabled = x.enabled := by
  unfold leave unsubInternal
  rw [hi]
  by_cases hs : s ∈ x.subscribers
  · rw [if_neg (by simp), if_pos hs]
    refine ⟨?_, rfl, rfl, rfl, rfl⟩
    show x.subscribers.erase s = _
    rw [hn.erase_eq_filter]
    congr 1
  · rw [if_neg (by simp), if_neg hs]
    refine ⟨?_, hi, rfl, rfl, rfl⟩
    refine (List.filter_eq_self.2 ?_).symm
    intro t ht
    have : t ≠ s := fun h => hs (h ▸ ht)
    simp [this]

/-- state after `s` left the publisher that it points to: the subscriptions of everybody else are untouched -/
theorem leave_step {h : List Act} {w : PW} (hi : SubInv h w) (run : Act → PW → Res PW Unit) (s : SubId) (b : Bool)
    (hs : s ∉ w.deadSubs) :
    ∃ w', leaveOld env (deliver env run) s b w = .ok () w' ∧
      (∀ p, (w'.pubs p).subscribers = (subscribedTo p h).filter (fun t => !decide (t = s)) ∧ (w'.pubs p).insideNotify = false ∧
        (w'.pubs p).toBeSubscribed = [] ∧ (w'.pubs p).toBeUnsubscribed = [] ∧ (w'.pubs p).enabled = eventsEnabled p h) ∧
      w'.ptr = w.ptr ∧ w'.deadSubs = w.deadSubs ∧ w'.deadPubs = [] := by
  have hother : ∀ p, w.ptr s ≠ some p → (subscribedTo p h).filter (fun t => !decide (t = s)) = subscribedTo p h := by
    intro p hne
    refine List.filter_eq_self.2 (fun t ht => ?_)
    have : t ≠ s := fun e => hne ((hi.ptr s p).2 (e ▸ ht))
    simp [this]
  unfold leaveOld
  cases hq : w.ptr s with
  | none =>
    refine ⟨w, rfl, fun p => ⟨?_, hi.inside p, hi.toSub p, hi.toUnsub p, hi.enab p⟩, rfl, rfl, hi.pubsAlive⟩
    rw [hother p (by simp [hq]), hi.subs]
  | some q =>
    simp only
    unfold pubUnsubscribe
    rw [if_neg (by simp [hi.pubsAlive])]
    obtain ⟨w1, e1, hl⟩ : ∃ w1, (if b then seqAll (fun e => notifySubscriber (deliver env run) q s e) (env.uncurrent q w.log) w
        else .ok () w) = .ok () w1 ∧ LogOnly w w1 := by
      cases b
      · exact ⟨w, rfl, .refl w⟩
      · exact seq_passive hp run q s _ w hs
    rw [e1]
    have hi1 := hi.logOnly hl
    obtain ⟨l, rfl⟩ := hl
    refine ⟨_, rfl, fun p => ?_, rfl, rfl, hi.pubsAlive⟩
    simp only [PW.setPub]
    by_cases hpq : p = q
    · subst hpq
      have := unsub_eq (x := w.pubs p) s (by rw [hi.subs]; exact subscribedTo_nodup p h) (hi.inside p)
      simp only [if_true]
      refine ⟨?_, this.2.1, ?_, ?_, ?_⟩
      · rw [this.1, hi.subs]
      · rw [this.2.2.1, hi.toSub]
      · rw [this.2.2.2.1, hi.toUnsub]
      · rw [this.2.2.2.2, hi.enab]
    · simp only [hpq, if_false]
      refine ⟨?_, hi.inside p, hi.toSub p, hi.toUnsub p, hi.enab p⟩
      rw [hother p (by rw [hq]; simpa using fun e => hpq e.symm), hi.subs]

omit hp in
theorem dead_snoc {h : List Act} {a : Act} {s : SubId} (ha : a ≠ .destroySub s) :
    (∃ h1 h2, h ++ [a] = h1 ++ Act.destroySub s :: h2) ↔ ∃ h1 h2, h = h1 ++ Act.destroySub s :: h2 := by
  constructor
  · rintro ⟨h1, h2, e⟩
    rcases List.eq_nil_or_concat h2 with rfl | ⟨h3, b, rfl⟩
    · have := List.append_inj_right' e (by simp)
      simp at this; exact absurd this ha
    · refine ⟨h1, h3, ?_⟩
      have : h ++ [a] = (h1 ++ Act.destroySub s :: h3) ++ [b] := by rw [e]; simp
      exact List.append_inj_left' this (by simp)
  · rintro ⟨h1, h2, rfl⟩; exact ⟨h1, h2 ++ [a], by simp⟩

/-- One call of the subscriber interface. It is undefined only if it uses a destroyed subscriber. -/
theorem SubInv.step {h : List Act} {w : PW} (hi : SubInv h w) (n : Nat) (a : Act) (ha : a.viaSubscriber)
    (hd : ∀ s, a.concerns s → s ∉ w.deadSubs) : ∃ w', act env (n + 1) a w = .ok () w' ∧ SubInv (h ++ [a]) w' := by
  cases a with
  | pubSubscribe => simp [Act.viaSubscriber] at ha
  | pubUnsubscribe => simp [Act.viaSubscriber] at ha
  | destroyPub => simp [Act.viaSubscriber] at ha
  | fail => simp [Act.viaSubscriber] at ha
  | enable p b =>
    simp only [act, hi.pubsAlive, List.not_mem_nil, if_false]
    refine ⟨_, rfl, hi.neutral (fun s => rfl) (fun q => ?_) (fun q => ?_) rfl rfl rfl⟩
    · simp only [PW.setPub]; split
      · rename_i hq; subst hq; exact ⟨rfl, rfl, rfl, rfl⟩
      · exact ⟨rfl, rfl, rfl, rfl⟩
    · rw [eventsEnabled_snoc]; simp only [PW.setPub]
      by_cases hq : q = p
      · subst hq; simp
      · have : p ≠ q := fun e => hq e.symm
        simp [hq, this, hi.enab]
  | notify p e =>
    simp only [act]
    unfold PW.notify
    rw [if_neg (by simp [hi.pubsAlive])]
    have hen : ∀ q, eventsEnabled q (h ++ [Act.notify p e]) = eventsEnabled q h := fun q => by rw [eventsEnabled_snoc]
    by_cases he : (w.pubs p).enabled
    · rw [if_pos he]
      simp only
      rw [notifyLoop_passive hp]
      · refine ⟨_, rfl, hi.neutral (fun s => rfl) (fun q => ?_) (fun q => ?_) rfl rfl rfl⟩
        · by_cases hq : q = p
          · subst hq
            simp [PW.setPub, notifyEnd, hi.toSub, hi.toUnsub, hi.inside]
          · simp [PW.setPub, hq]
        · rw [hen]
          by_cases hq : q = p
          · subst hq
            simp [PW.setPub, notifyEnd, hi.toSub, hi.toUnsub, hi.enab]
          · simp [PW.setPub, hq, hi.enab]
      · intro s hs hdd
        simp [PW.setPub, hi.subs] at hs
        exact hi.deadNo s p hdd hs
    · rw [if_neg he]
      exact ⟨w, rfl, hi.neutral (fun s => rfl) (fun q => ⟨rfl, rfl, rfl, rfl⟩) (fun q => by rw [hen, hi.enab]) rfl rfl rfl⟩
  | subscribe s p b =>
    have hs : s ∉ w.deadSubs := hd s (by simp [Act.concerns])
    simp only [act]
    unfold subSubscribe
    rw [if_neg hs]
    obtain ⟨w1, e1, hw1, hptr1, hds1, hdp1⟩ := leave_step hp hi (act env n) s b hs
    rw [e1]
    simp only
    unfold pubSubscribe
    rw [if_neg (by simp [PW.setPtr, hdp1])]
    obtain ⟨w2, e2, hl⟩ : ∃ w2, (if b then seqAll (fun e => notifySubscriber (deliver env (act env n)) p s e)
        (env.current p (w1.setPtr s (some p)).log) (w1.setPtr s (some p)) else .ok () (w1.setPtr s (some p))) = .ok () w2 ∧
        LogOnly (w1.setPtr s (some p)) w2 := by
      cases b
      · exact ⟨_, rfl, .refl _⟩
      · exact seq_passive hp _ p s _ _ (by simpa [PW.setPtr, hds1] using hs)
    rw [e2]
    obtain ⟨l, rfl⟩ := hl
    have hfil : ∀ q, (subscribedTo q h).filter (fun t => !(Act.subscribe s p b).concerns t) =
        (subscribedTo q h).filter (fun t => !decide (t = s)) := by
      intro q; congr 1; funext t; simp only [Act.concerns]; by_cases ht : t = s
      · subst ht; simp
      · have : s ≠ t := fun e => ht e.symm
        simp [ht, this]
    refine ⟨_, rfl, fun q => ?_, fun q => ?_, fun q => ?_, fun q => ?_, fun q => ?_, fun t q => ?_, fun t => ?_, fun t q h1 => ?_, ?_⟩
    · rw [subscribedTo_snoc, hfil]
      by_cases hq : q = p
      · subst hq
        simp [PW.setPub, PW.setPtr, enter, (hw1 q).2.1, pushSub, (hw1 q).1, lastNew]
      · have : p ≠ q := fun e => hq e.symm
        simp [PW.setPub, PW.setPtr, hq, (hw1 q).1, lastNew, this]
    · by_cases hq : q = p
      · subst hq; simp [PW.setPub, PW.setPtr, enter, (hw1 q).2.1, pushSub]
      · simp [PW.setPub, PW.setPtr, hq, (hw1 q).2.1]
    · by_cases hq : q = p
      · subst hq; simp [PW.setPub, PW.setPtr, enter, (hw1 q).2.1, pushSub, (hw1 q).2.2.1]
      · simp [PW.setPub, PW.setPtr, hq, (hw1 q).2.2.1]
    · by_cases hq : q = p
      · subst hq; simp [PW.setPub, PW.setPtr, enter, (hw1 q).2.1, pushSub, (hw1 q).2.2.2.1]
      · simp [PW.setPub, PW.setPtr, hq, (hw1 q).2.2.2.1]
    · rw [eventsEnabled_snoc]
      by_cases hq : q = p
      · subst hq; simp [PW.setPub, PW.setPtr, enter, (hw1 q).2.1, pushSub, (hw1 q).2.2.2.2]
      · simp [PW.setPub, PW.setPtr, hq, (hw1 q).2.2.2.2]
    · rw [subscribedTo_snoc, hfil]
      by_cases ht : t = s
      · subst ht
        simp only [PW.setPub, PW.setPtr, if_true, List.mem_append, List.mem_filter, decide_true, Bool.not_true,
          Bool.false_eq_true, and_false, false_or, lastNew]
        by_cases hq : p = q <;> simp [hq]
      · have h2 : t ∉ lastNew q (Act.subscribe s p b) := by
          simp only [lastNew]; split <;> simp [ht]
        have h3 : w1.ptr t = some q ↔ t ∈ subscribedTo q h := by rw [hptr1]; exact hi.ptr t q
        simpa [PW.setPub, PW.setPtr, ht, h2] using h3
    · rw [dead_snoc (by simp), ← hi.dead]
      simp [PW.setPub, PW.setPtr, hds1]
    · rw [subscribedTo_snoc, hfil]
      have hdt : t ∈ w.deadSubs := by simpa [PW.setPub, PW.setPtr, hds1] using h1
      have hts : t ≠ s := fun e => hs (e ▸ hdt)
      have h2 : t ∉ lastNew q (Act.subscribe s p b) := by
          simp only [lastNew]; split <;> simp [hts]
      simp [h2, hi.deadNo t q hdt]
    · simp [PW.setPub, PW.setPtr, hdp1]
  | unsubscribe s =>
    have hs : s ∉ w.deadSubs := hd s (by simp [Act.concerns])
    obtain ⟨w1, e1, hw1, hptr1, hds1, hdp1⟩ := leave_step hp hi (act env n) s false hs
    have hfil : ∀ q, subscribedTo q (h ++ [Act.unsubscribe s]) = (subscribedTo q h).filter (fun t => !decide (t = s)) := by
      intro q; rw [subscribedTo_snoc]; simp only [lastNew, List.append_nil]; congr 1; funext t; simp only [Act.concerns]
      by_cases ht : t = s
      · subst ht; simp
      · have : s ≠ t := fun e => ht e.symm
        simp [ht, this]
    have hact : act env (n + 1) (.unsubscribe s) w = .ok () (w1.setPtr s none) := by
      simp only [act]
      unfold subUnsubscribe
      rw [if_neg hs]
      cases hq : w.ptr s with
      | none =>
        simp only [leaveOld, hq] at e1
        simp only [Res.ok.injEq, true_and] at e1
        subst e1
        have : w.setPtr s none = w := by
          unfold PW.setPtr
          have : (fun t => if t = s then none else w.ptr t) = w.ptr := by
            funext t; split
            · rename_i ht; rw [ht, hq]
            · rfl
          rw [this]
        rw [this]
      | some q => simp only [leaveOld, hq] at e1; simp only; rw [e1]
    refine ⟨_, hact, fun q => ?_, fun q => (hw1 q).2.1, fun q => (hw1 q).2.2.1, fun q => (hw1 q).2.2.2.1, fun q => ?_, fun t q => ?_,
      fun t => ?_, fun t q h1 => ?_, hdp1⟩
    · rw [hfil]; exact (hw1 q).1
    · rw [eventsEnabled_snoc]; exact (hw1 q).2.2.2.2
    · rw [hfil]
      by_cases ht : t = s
      · subst ht; simp [PW.setPtr]
      · simp only [PW.setPtr, ht, if_false, hptr1, hi.ptr]; simp [ht]
    · rw [dead_snoc (by simp), ← hi.dead]; simp [PW.setPtr, hds1]
    · rw [hfil]
      have hdt : t ∈ w.deadSubs := by simpa [PW.setPtr, hds1] using h1
      simp [hi.deadNo t q hdt]
  | destroySub s =>
    have hs : s ∉ w.deadSubs := hd s (by simp [Act.concerns])
    obtain ⟨w1, e1, hw1, hptr1, hds1, hdp1⟩ := leave_step hp hi (act env n) s false hs
    have hfil : ∀ q, subscribedTo q (h ++ [Act.destroySub s]) = (subscribedTo q h).filter (fun t => !decide (t = s)) := by
      intro q; rw [subscribedTo_snoc]; simp only [lastNew, List.append_nil]; congr 1; funext t; simp only [Act.concerns]
      by_cases ht : t = s
      · subst ht; simp
      · have : s ≠ t := fun e => ht e.symm
        simp [ht, this]
    have hact : act env (n + 1) (.destroySub s) w = .ok () { w1.setPtr s none with deadSubs := s :: w1.deadSubs } := by
      simp only [act]
      unfold subUnsubscribe
      rw [if_neg hs]
      cases hq : w.ptr s with
      | none =>
        simp only [leaveOld, hq] at e1
        simp only [Res.ok.injEq, true_and] at e1
        subst e1
        have : w.setPtr s none = w := by
          unfold PW.setPtr
          have : (fun t => if t = s then none else w.ptr t) = w.ptr := by
            funext t; split
            · rename_i ht; rw [ht, hq]
            · rfl
          rw [this]
        rw [this]
      | some q => simp only [leaveOld, hq] at e1; simp only; rw [e1]; rfl
    refine ⟨_, hact, fun q => ?_, fun q => (hw1 q).2.1, fun q => (hw1 q).2.2.1, fun q => (hw1 q).2.2.2.1, fun q => ?_, fun t q => ?_,
      fun t => ?_, fun t q h1 => ?_, hdp1⟩
    · rw [hfil]; exact (hw1 q).1
    · rw [eventsEnabled_snoc]; exact (hw1 q).2.2.2.2
    · rw [hfil]
      by_cases ht : t = s
      · subst ht; simp [PW.setPtr]
      · simp only [PW.setPtr, ht, if_false, hptr1, hi.ptr]; simp [ht]
    · by_cases ht : t = s
      · subst ht
        simp only [List.mem_cons, true_or, true_iff]
        exact ⟨h, [], rfl⟩
      · rw [dead_snoc (by simpa using fun e => ht e.symm), ← hi.dead]; simp [PW.setPtr, hds1, ht]
    · rw [hfil]
      by_cases ht : t = s
      · subst ht; simp
      · have hdt : t ∈ w.deadSubs := by simpa [PW.setPtr, hds1, ht] using h1
        simp [hi.deadNo t q hdt]

/-- a destroyed subscriber is not used -/
theorem act_dead {w : PW} {s : SubId} {a : Act} (n : Nat) (hc : a.concerns s) (hs : s ∈ w.deadSubs) :
    ∃ r, act env n a w = .ub r := by
  cases n with
  | zero => exact ⟨_, rfl⟩
  | succ n =>
    cases a <;> simp [Act.concerns] at hc <;> subst hc
    · exact ⟨"subscribe: destroyed subscriber", by simp only [act]; unfold subSubscribe; rw [if_pos hs]⟩
    · exact ⟨"unsubscribe: destroyed subscriber", by simp only [act]; unfold subUnsubscribe; rw [if_pos hs]⟩
    · refine ⟨"unsubscribe: destroyed subscriber", ?_⟩
      simp only [act]; unfold subUnsubscribe; rw [if_pos hs]

omit hp in
theorem PW.run_append (env : PEnv) (n : Nat) (l l' : List Act) (w : PW) :
    run env n (l ++ l') w = (run env n l w).bind (run env n l') := by
  induction l generalizing w with
  | nil => rfl
  | cons a l ih =>
    simp only [List.cons_append, run]
    cases h : act env n a w with
    | ok u w' => exact ih w'
    | throw x w' => exact ih w'
    | ub r => rfl

/-- the invariant holds after every program that uses the subscriber interface -/
theorem SubInv.run {n : Nat} {h : List Act} (hv : ∀ a ∈ h, a.viaSubscriber) {w : PW}
    (hr : PW.run env (n + 1) h PW.init = some w) : SubInv h w := by
  induction h using List.reverseRecOn generalizing w with
  | nil => simp [PW.run] at hr; subst hr; exact .init
  | append_singleton h a ih =>
    rw [PW.run_append] at hr
    cases h1 : PW.run env (n + 1) h PW.init with
    | none => rw [h1] at hr; simp at hr
    | some w1 =>
      rw [h1] at hr
      simp only [Option.bind_some, PW.run] at hr
      have hi := ih (fun b hb => hv b (by simp [hb])) h1
      have hd : ∀ s, a.concerns s → s ∉ w1.deadSubs := by
        intro s hc hs
        obtain ⟨r, hr'⟩ := act_dead hp (n + 1) hc hs
        rw [hr'] at hr; simp at hr
      obtain ⟨w', e, hi'⟩ := hi.step hp n a (hv a (by simp)) hd
      rw [e] at hr
      simp at hr; subst hr; exact hi'

end Verif
