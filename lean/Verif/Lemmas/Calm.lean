import Verif.Spec.Calm
import Verif.Lemmas.Publisher
/-!
# Lemmas: handlers with a division of labour
-/
set_option linter.unusedSectionVars false
set_option linter.unusedSimpArgs false

namespace Verif
open PW

variable {env : PEnv} {P : PubId → Prop} {M : SubId → Prop}

/-- invariant during handlers -/
structure CInv (P : PubId → Prop) (M : SubId → Prop) (w : PW) : Prop where
  deadS : w.deadSubs = []
  deadP : w.deadPubs = []
  quiet : ∀ p, P p → (w.pubs p).toBeSubscribed = [] ∧ (w.pubs p).toBeUnsubscribed = []
  ptr : ∀ s p, M s → w.ptr s = some p → ¬ P p

/-- what handlers leave alone -/
structure Kept (P : PubId → Prop) (w w' : PW) : Prop where
  chg : ∀ p, P p → (w'.pubs p).changes = (w.pubs p).changes
  ins : ∀ p, P p → (w'.pubs p).insideNotify = true → (w.pubs p).insideNotify = true
  oth : ∀ p, ¬ P p → (w.pubs p).insideNotify = true → (w'.pubs p).insideNotify = true ∧ (w'.pubs p).changes = (w.pubs p).changes

theorem Kept.refl (w : PW) : Kept P w w := ⟨fun _ _ => rfl, fun _ _ h => h, fun _ _ h => ⟨h, rfl⟩⟩

theorem Kept.trans {a b c : PW} (h : Kept P a b) (k : Kept P b c) : Kept P a c :=
  ⟨fun p hp => (k.chg p hp).trans (h.chg p hp), fun p hp hc => h.ins p hp (k.ins p hp hc), fun p hp ha => by
    obtain ⟨h1, h2⟩ := h.oth p hp ha
    obtain ⟨k1, k2⟩ := k.oth p hp h1
    exact ⟨k1, k2.trans h2⟩⟩

/-- result of a call inside a handler; `deep`: there is enough stack -/
def CGood (P : PubId → Prop) (M : SubId → Prop) (deep : Prop) (w : PW) {α : Type} (r : Res PW α) : Prop :=
  match r with
  | .ok _ w' => CInv P M w' ∧ Kept P w w'
  | .throw _ w' => CInv P M w' ∧ Kept P w w' ∧ ∀ p, ¬ P p
  | .ub r => r = "endless recursion" ∧ ¬ deep

theorem CGood.after {deep : Prop} {w w1 : PW} {α : Type} {r : Res PW α} (h : CGood P M deep w1 r) (k : Kept P w w1) :
    CGood P M deep w r := by
  cases r with
  | ok x w2 => exact ⟨h.1, k.trans h.2⟩
  | throw x w2 => exact ⟨h.1, k.trans h.2.1, h.2.2⟩
  | ub r => exact h

theorem seqAll_good {α : Type} {deep : Prop} (f : α → PW → Res PW Unit) (l : List α)
    (hf : ∀ a ∈ l, ∀ w, CInv P M w → CGood P M deep w (f a w)) (w : PW) (hi : CInv P M w) :
    CGood P M deep w (seqAll f l w) := by
  induction l generalizing w with
  | nil => exact ⟨hi, .refl w⟩
  | cons a l ih =>
    unfold seqAll
    have h1 := hf a (by simp) w hi
    cases e : f a w with
    | ok x w1 =>
      rw [e] at h1
      exact (ih (fun b hb => hf b (by simp [hb])) w1 h1.1).after h1.2
    | throw x w1 => rw [e] at h1; exact h1
    | ub r => rw [e] at h1; exact h1

/-- the events that may be delivered -/
abbrev DGood (P : PubId → Prop) (M : SubId → Prop) (deep : Prop) (es : Event → Prop) (d : SubId → Event → PW → Res PW Unit) : Prop :=
  ∀ s e w, es e → CInv P M w → CGood P M deep w (d s e w)

theorem deliver_good {deep : Prop} {es : Event → Prop} (run : Act → PW → Res PW Unit)
    (hr : ∀ s e l, es e → ∀ a ∈ env.handler s e l, ∀ w, CInv P M w → CGood P M deep w (run a w)) :
    DGood P M deep es (deliver env run) := by
  intro s e w he hi
  unfold deliver
  rw [if_neg (by simp [hi.deadS])]
  have h1 : CInv P M { w with log := w.log ++ [(s, e)] } := ⟨hi.deadS, hi.deadP, hi.quiet, hi.ptr⟩
  have := seqAll_good run (env.handler s e (w.log ++ [(s, e)])) (hr s e _ he) { w with log := w.log ++ [(s, e)] } h1
  exact this.after ⟨fun _ _ => rfl, fun _ _ h => h, fun _ _ h => ⟨h, rfl⟩⟩

section
variable {deep : Prop} {es : Event → Prop} {d : SubId → Event → PW → Res PW Unit} (hd : DGood P M deep es d)
include hd

theorem events_good (p : PubId) (s : SubId) (l : List Event) (hl : ∀ e ∈ l, es e) (w : PW) (hi : CInv P M w) :
    CGood P M deep w (seqAll (fun e => notifySubscriber d p s e) l w) := by
  refine seqAll_good _ l (fun e he w hi => ?_) w hi
  unfold notifySubscriber
  split
  · exact hd s e w (hl e he) hi
  · exact ⟨hi, .refl w⟩

theorem loop_good (p : PubId) (e : Event) (he : es e) (l : List SubId) (w : PW) (hi : CInv P M w) (c : Nat)
    (hc : (w.pubs p).changes = c) (hp : P p ∨ (w.pubs p).insideNotify = true) :
    CGood P M deep w (notifyLoop d p e c l w) := by
  induction l generalizing w with
  | nil => exact ⟨hi, .refl w⟩
  | cons s l ih =>
    unfold notifyLoop
    have h1 := hd s e w he hi
    cases hr : d s e w with
    | ok x w1 =>
      rw [hr] at h1
      have hk : (w1.pubs p).changes = c ∧ (P p ∨ (w1.pubs p).insideNotify = true) := by
        by_cases hP : P p
        · exact ⟨(h1.2.chg p hP).trans hc, .inl hP⟩
        · obtain ⟨k1, k2⟩ := h1.2.oth p hP (hp.resolve_left hP)
          exact ⟨k2.trans hc, .inr k1⟩
      simp only
      rw [if_pos hk.1]
      exact (ih w1 h1.1 hk.1 hk.2).after h1.2
    | throw x w1 => rw [hr] at h1; exact h1
    | ub r => rw [hr] at h1; exact h1

omit hd in
theorem CInv.setOther {w : PW} (hi : CInv P M w) {p : PubId} (hp : ¬ P p) (x : Pub) : CInv P M (w.setPub p x) := by
  refine ⟨hi.deadS, hi.deadP, fun q hq => ?_, hi.ptr⟩
  have : q ≠ p := fun e => hp (e ▸ hq)
  simpa [setPub, this] using hi.quiet q hq

omit hd in
theorem Kept.setOther {w : PW} {p : PubId} (hp : ¬ P p) (x : Pub)
    (hx : (w.pubs p).insideNotify = true → x.insideNotify = true ∧ x.changes = (w.pubs p).changes) : Kept P w (w.setPub p x) := by
  refine ⟨fun q hq => ?_, fun q hq h => ?_, fun q hq h => ?_⟩
  · have : q ≠ p := fun e => hp (e ▸ hq)
    simp [setPub, this]
  · have : q ≠ p := fun e => hp (e ▸ hq)
    simpa [setPub, this] using h
  · by_cases hqp : q = p
    · subst hqp; simpa [setPub] using hx h
    · simpa [setPub, hqp] using h

omit hd in
theorem enter_inside (s : SubId) (x : Pub) (h : x.insideNotify = true) :
    (enter s x).insideNotify = true ∧ (enter s x).changes = x.changes := by simp [enter, h]

omit hd in
theorem leave_inside (s : SubId) (x : Pub) (h : x.insideNotify = true) :
    (leave s x).insideNotify = true ∧ (leave s x).changes = x.changes := by simp [leave, h]

theorem pubSubscribe_good (p : PubId) (hp : ¬ P p) (s : SubId) (b : Bool) (hes : b = true → ∀ l, ∀ e ∈ env.current p l, es e) (w : PW)
    (hi : CInv P M w) : CGood P M deep w (PW.pubSubscribe env d p s b w) := by
  unfold PW.pubSubscribe
  rw [hi.deadP, if_neg (by simp)]
  have h1 : CGood P M deep w (if b then seqAll (fun e => notifySubscriber d p s e) (env.current p w.log) w else .ok () w) := by
    cases b
    · exact ⟨hi, .refl w⟩
    · exact events_good hd p s _ (hes rfl _) w hi
  generalize (if b then seqAll (fun e => notifySubscriber d p s e) (env.current p w.log) w else .ok () w : Res PW Unit) = r at h1 ⊢
  cases r with
  | ok x w1 => exact ⟨h1.1.setOther hp _, h1.2.trans (Kept.setOther hp _ (enter_inside s _))⟩
  | throw x w1 => exact h1
  | ub r => exact h1

theorem pubUnsubscribe_good (p : PubId) (hp : ¬ P p) (s : SubId) (b : Bool) (hes : b = true → ∀ l, ∀ e ∈ env.uncurrent p l, es e) (w : PW)
    (hi : CInv P M w) : CGood P M deep w (PW.pubUnsubscribe env d p s b w) := by
  unfold PW.pubUnsubscribe
  rw [hi.deadP, if_neg (by simp)]
  have h1 : CGood P M deep w (if b then seqAll (fun e => notifySubscriber d p s e) (env.uncurrent p w.log) w else .ok () w) := by
    cases b
    · exact ⟨hi, .refl w⟩
    · exact events_good hd p s _ (hes rfl _) w hi
  generalize (if b then seqAll (fun e => notifySubscriber d p s e) (env.uncurrent p w.log) w else .ok () w : Res PW Unit) = r at h1 ⊢
  cases r with
  | ok x w1 => exact ⟨h1.1.setOther hp _, h1.2.trans (Kept.setOther hp _ (leave_inside s _))⟩
  | throw x w1 => exact h1
  | ub r => exact h1

omit hd in
theorem CInv.setPtr {w : PW} (hi : CInv P M w) (s : SubId) (x : Option PubId) (hx : M s → ∀ p, x = some p → ¬ P p) :
    CInv P M (w.setPtr s x) := by
  refine ⟨hi.deadS, hi.deadP, hi.quiet, fun t p ht h => ?_⟩
  by_cases hts : t = s
  · subst hts; exact hx ht p (by simpa [PW.setPtr] using h)
  · exact hi.ptr t p ht (by simpa [PW.setPtr, hts] using h)

omit hd in
theorem Kept.setPtr (w : PW) (s : SubId) (x : Option PubId) : Kept P w (w.setPtr s x) :=
  ⟨fun _ _ => rfl, fun _ _ h => h, fun _ _ h => ⟨h, rfl⟩⟩

theorem leaveOld_good (s : SubId) (hs : M s) (b : Bool) (hes : b = true → ∀ q l, ∀ e ∈ env.uncurrent q l, es e) (w : PW)
    (hi : CInv P M w) : CGood P M deep w (leaveOld env d s b w) := by
  unfold leaveOld
  cases h : w.ptr s with
  | none => exact ⟨hi, .refl w⟩
  | some q => exact pubUnsubscribe_good hd q (hi.ptr s q hs h) s b (fun hb => hes hb q) w hi

theorem subSubscribe_good (s : SubId) (hs : M s) (p : PubId) (hp : ¬ P p) (b : Bool)
    (hes : b = true → (∀ l, ∀ e ∈ env.current p l, es e) ∧ ∀ q l, ∀ e ∈ env.uncurrent q l, es e) (w : PW)
    (hi : CInv P M w) : CGood P M deep w (subSubscribe env d s p b w) := by
  unfold subSubscribe
  rw [hi.deadS, if_neg (by simp)]
  have h1 := leaveOld_good hd s hs b (fun hb => (hes hb).2) w hi
  cases e : leaveOld env d s b w with
  | ok x w1 =>
    rw [e] at h1
    have hi1 := h1.1.setPtr s (some p) (fun _ q hq => by cases hq; exact hp)
    exact (pubSubscribe_good hd p hp s b (fun hb => (hes hb).1) _ hi1).after (h1.2.trans (Kept.setPtr ..))
  | throw x w1 => rw [e] at h1; exact h1
  | ub r => rw [e] at h1; exact h1

theorem subUnsubscribe_good (s : SubId) (hs : M s) (w : PW) (hi : CInv P M w) :
    CGood P M deep w (subUnsubscribe env d s w) := by
  unfold subUnsubscribe
  rw [hi.deadS, if_neg (by simp)]
  cases h : w.ptr s with
  | none => exact ⟨hi, .refl w⟩
  | some q =>
    have h1 := pubUnsubscribe_good hd (env := env) q (hi.ptr s q hs h) s false (by simp) w hi
    cases e : PW.pubUnsubscribe env d q s false w with
    | ok x w1 =>
      rw [e] at h1
      simp only [e]
      exact ⟨h1.1.setPtr s none (by simp), h1.2.trans (Kept.setPtr ..)⟩
    | throw x w1 => rw [e] at h1; simp only [e]; exact h1
    | ub r => rw [e] at h1; simp only [e]; exact h1

/-- an event at any publisher, if nobody is inside one of `P` or the publisher is in `P` -/
theorem notify_good (p : PubId) (hp : P p) (e : Event) (he : es e) (w : PW) (hi : CInv P M w) :
    CGood P M deep w (PW.notify d p e w) := by
  unfold PW.notify
  rw [hi.deadP, if_neg (by simp)]
  split
  · have hi1 : CInv P M (w.setPub p { w.pubs p with insideNotify := true }) := by
      refine ⟨hi.deadS, hi.deadP, fun q hq => ?_, hi.ptr⟩
      by_cases hqp : q = p
      · subst hqp; simpa [setPub] using hi.quiet q hq
      · simpa [setPub, hqp] using hi.quiet q hq
    have h1 := loop_good hd p e he ((w.setPub p { w.pubs p with insideNotify := true }).pubs p).subscribers _ hi1 _ rfl (.inl hp)
    simp only
    generalize notifyLoop d p e ((w.setPub p { w.pubs p with insideNotify := true }).pubs p).changes
      ((w.setPub p { w.pubs p with insideNotify := true }).pubs p).subscribers (w.setPub p { w.pubs p with insideNotify := true }) = r at h1 ⊢
    cases r with
    | ok x w1 =>
      obtain ⟨h1, h2⟩ := h1
      obtain ⟨q1, q2⟩ := h1.quiet p hp
      have hend : notifyEnd (w1.pubs p) = { w1.pubs p with insideNotify := false } := by
        simp [notifyEnd, q1, q2]
      simp only [hend]
      refine ⟨⟨h1.deadS, h1.deadP, fun q hq => ?_, h1.ptr⟩, ?_, ?_, ?_⟩
      · by_cases hqp : q = p
        · subst hqp; simpa [setPub] using ⟨q1, q2⟩
        · simpa [setPub, hqp] using h1.quiet q hq
      · intro q hq
        have := h2.chg q hq
        by_cases hqp : q = p
        · subst hqp; simpa [setPub] using this
        · simpa [setPub, hqp] using this
      · intro q hq h
        by_cases hqp : q = p
        · subst hqp; simp [setPub] at h
        · have h3 := h2.ins q hq
          simp [setPub, hqp] at h h3
          exact h3 h
      · intro q hq h
        have hqp : q ≠ p := fun e => hq (e ▸ hp)
        have h3 := h2.oth q hq
        simp [setPub, hqp] at h3 ⊢
        exact h3 h
    | throw x w1 => exact absurd hp (h1.2.2 p)
    | ub r => exact h1
  · exact ⟨hi, .refl w⟩

end

/-- A call of a handler. `deep n a`: `n` levels are enough for `a`. -/
theorem act_good (hh : ∀ s e l, ∀ a ∈ env.handler s e l, a.handlerOk P M) (deep : Nat → Act → Prop) (h0 : ∀ a, ¬ deep 0 a)
    (hs : ∀ n a e, deep (n + 1) a → a.raises env e → ∀ s l, ∀ b ∈ env.handler s e l, deep n b) (n : Nat) :
    ∀ a w, a.handlerOk P M → CInv P M w → CGood P M (deep n a) w (act env n a w) := by
  induction n with
  | zero => exact fun a w _ _ => ⟨rfl, h0 a⟩
  | succ n ih =>
    intro a w ha hi
    have hd : DGood P M (deep (n + 1) a) (fun e => a.raises env e) (deliver env (act env n)) := by
      refine deliver_good _ (fun s e l he b hb w hi => ?_)
      have h1 := ih b w (hh s e l b hb) hi
      cases hr : act env n b w with
      | ok x w1 => rw [hr] at h1; exact h1
      | throw x w1 => rw [hr] at h1; exact h1
      | ub r => rw [hr] at h1; exact ⟨h1.1, fun hdp => h1.2 (hs n a e hdp he s l b hb)⟩
    cases a with
    | subscribe s p b =>
      exact subSubscribe_good hd s ha.1 p ha.2 b (fun hb => ⟨fun l e he => ⟨hb, .inl ⟨l, he⟩⟩, fun q l e he => ⟨hb, .inr ⟨q, l, he⟩⟩⟩) w hi
    | unsubscribe s => exact subUnsubscribe_good hd s ha w hi
    | pubSubscribe p s b => exact pubSubscribe_good hd p ha s b (fun hb l e he => ⟨hb, l, he⟩) w hi
    | pubUnsubscribe p s b => exact pubUnsubscribe_good hd p ha s b (fun hb l e he => ⟨hb, l, he⟩) w hi
    | enable p b =>
      simp only [act]
      rw [hi.deadP, if_neg (by simp)]
      refine ⟨⟨hi.deadS, hi.deadP, fun q hq => ?_, hi.ptr⟩, fun q hq => ?_, fun q hq h => ?_, fun q hq h => ?_⟩
      all_goals
        by_cases hqp : q = p
        · subst hqp; first | simpa [setPub] using hi.quiet q hq | simpa [setPub] using h | simp [setPub]
        · first | simpa [setPub, hqp] using hi.quiet q hq | simpa [setPub, hqp] using h | simp [setPub, hqp]
    | notify p e => exact notify_good hd p ha e rfl w hi
    | destroySub s => exact ha.elim
    | destroyPub p => exact ha.elim
    | fail => exact ⟨hi, .refl w, ha⟩

/-- invariant between the calls of the program -/
def TInv (P : PubId → Prop) (M : SubId → Prop) (w : PW) : Prop :=
  CInv P M w ∧ ∀ p, P p → (w.pubs p).insideNotify = false

/-- result of a call of the program -/
def TGood (P : PubId → Prop) (M : SubId → Prop) (deep : Prop) {α : Type} (r : Res PW α) : Prop :=
  match r with
  | .ok _ w' => TInv P M w'
  | .throw _ w' => TInv P M w'
  | .ub r => r = "endless recursion" ∧ ¬ deep

theorem CGood.top {deep : Prop} {w : PW} {α : Type} {r : Res PW α} (h : CGood P M deep w r)
    (hw : ∀ p, P p → (w.pubs p).insideNotify = false) : TGood P M deep r := by
  cases r with
  | ok x w1 =>
    refine ⟨h.1, fun p hp => ?_⟩
    cases hx : (w1.pubs p).insideNotify with
    | false => rfl
    | true => have := h.2.ins p hp hx; rw [hw p hp] at this; cases this
  | throw x w1 => exact ⟨h.1, fun p hp => absurd hp (h.2.2 p)⟩
  | ub r => exact h

theorem TInv.setPub {w : PW} (hi : TInv P M w) {p : PubId} (x : Pub)
    (hx : P p → x.toBeSubscribed = [] ∧ x.toBeUnsubscribed = [] ∧ x.insideNotify = false) : TInv P M (w.setPub p x) := by
  refine ⟨⟨hi.1.deadS, hi.1.deadP, fun q hq => ?_, hi.1.ptr⟩, fun q hq => ?_⟩
  · by_cases hqp : q = p
    · subst hqp
      have := hx hq
      simpa [PW.setPub] using ⟨this.1, this.2.1⟩
    · simpa [PW.setPub, hqp] using hi.1.quiet q hq
  · by_cases hqp : q = p
    · subst hqp
      have := hx hq
      simpa [PW.setPub] using this.2.2
    · simpa [PW.setPub, hqp] using hi.2 q hq

theorem TInv.setPtr {w : PW} (hi : TInv P M w) (s : SubId) (x : Option PubId) (hx : M s → ∀ p, x = some p → ¬ P p) :
    TInv P M (w.setPtr s x) := ⟨hi.1.setPtr s x hx, hi.2⟩

section
variable {deep : Prop} {es : Event → Prop} {d : SubId → Event → PW → Res PW Unit} (hd : DGood P M deep es d)
include hd

theorem pubSubscribe_top (p : PubId) (s : SubId) (b : Bool) (hes : b = true → ∀ l, ∀ e ∈ env.current p l, es e) (w : PW)
    (hi : TInv P M w) : TGood P M deep (PW.pubSubscribe env d p s b w) := by
  unfold PW.pubSubscribe
  rw [hi.1.deadP, if_neg (by simp)]
  have h1 : TGood P M deep (if b then seqAll (fun e => notifySubscriber d p s e) (env.current p w.log) w else .ok () w) := by
    cases b
    · exact hi
    · exact (events_good hd p s _ (hes rfl _) w hi.1).top hi.2
  generalize (if b then seqAll (fun e => notifySubscriber d p s e) (env.current p w.log) w else .ok () w : Res PW Unit) = r at h1 ⊢
  cases r with
  | ok x w1 =>
    have h1 : TInv P M w1 := h1
    refine h1.setPub _ (fun hp => ?_)
    have hin := h1.2 p hp
    have hq := h1.1.quiet p hp
    simpa [enter, hin, pushSub] using hq
  | throw x w1 => exact h1
  | ub r => exact h1

theorem pubUnsubscribe_top (p : PubId) (s : SubId) (b : Bool) (hes : b = true → ∀ l, ∀ e ∈ env.uncurrent p l, es e) (w : PW)
    (hi : TInv P M w) : TGood P M deep (PW.pubUnsubscribe env d p s b w) := by
  unfold PW.pubUnsubscribe
  rw [hi.1.deadP, if_neg (by simp)]
  have h1 : TGood P M deep (if b then seqAll (fun e => notifySubscriber d p s e) (env.uncurrent p w.log) w else .ok () w) := by
    cases b
    · exact hi
    · exact (events_good hd p s _ (hes rfl _) w hi.1).top hi.2
  generalize (if b then seqAll (fun e => notifySubscriber d p s e) (env.uncurrent p w.log) w else .ok () w : Res PW Unit) = r at h1 ⊢
  cases r with
  | ok x w1 =>
    have h1 : TInv P M w1 := h1
    refine h1.setPub _ (fun hp => ?_)
    have hin := h1.2 p hp
    have hq := h1.1.quiet p hp
    rw [leave, if_neg (by simp [hin])]
    unfold unsubInternal
    split <;> simp [hq, hin]
  | throw x w1 => exact h1
  | ub r => exact h1

theorem subSubscribe_top (s : SubId) (p : PubId) (hp : M s → ¬ P p) (b : Bool)
    (hes : b = true → (∀ l, ∀ e ∈ env.current p l, es e) ∧ ∀ q l, ∀ e ∈ env.uncurrent q l, es e) (w : PW)
    (hi : TInv P M w) : TGood P M deep (subSubscribe env d s p b w) := by
  unfold subSubscribe
  rw [hi.1.deadS, if_neg (by simp)]
  have h1 : TGood P M deep (leaveOld env d s b w) := by
    unfold leaveOld
    cases h : w.ptr s with
    | none => exact hi
    | some q => exact pubUnsubscribe_top hd q s b (fun hb => (hes hb).2 q) w hi
  cases e : leaveOld env d s b w with
  | ok x w1 =>
    rw [e] at h1
    exact pubSubscribe_top hd p s b (fun hb => (hes hb).1) _
      (TInv.setPtr h1 s (some p) (fun hs q hq => by cases hq; exact hp hs))
  | throw x w1 => rw [e] at h1; exact h1
  | ub r => rw [e] at h1; exact h1

theorem subUnsubscribe_top (s : SubId) (w : PW) (hi : TInv P M w) : TGood P M deep (subUnsubscribe env d s w) := by
  unfold subUnsubscribe
  rw [hi.1.deadS, if_neg (by simp)]
  cases h : w.ptr s with
  | none => exact hi
  | some q =>
    have h1 := pubUnsubscribe_top hd (env := env) q s false (by simp) w hi
    cases e : PW.pubUnsubscribe env d q s false w with
    | ok x w1 =>
      rw [e] at h1
      simp only [e]
      exact TInv.setPtr h1 s none (by simp)
    | throw x w1 => rw [e] at h1; simp only [e]; exact h1
    | ub r => rw [e] at h1; simp only [e]; exact h1

theorem notify_top (p : PubId) (e : Event) (he : es e) (w : PW) (hi : TInv P M w) : TGood P M deep (PW.notify d p e w) := by
  by_cases hp : P p
  · exact (notify_good hd p hp e he w hi.1).top hi.2
  · unfold PW.notify
    rw [hi.1.deadP, if_neg (by simp)]
    split
    · have hi1 := hi.setPub (p := p) { w.pubs p with insideNotify := true } (fun h => absurd h hp)
      have h1 := (loop_good hd p e he ((w.setPub p { w.pubs p with insideNotify := true }).pubs p).subscribers _ hi1.1 _ rfl
        (.inr (by simp [PW.setPub]))).top hi1.2
      simp only
      generalize notifyLoop d p e ((w.setPub p { w.pubs p with insideNotify := true }).pubs p).changes
        ((w.setPub p { w.pubs p with insideNotify := true }).pubs p).subscribers (w.setPub p { w.pubs p with insideNotify := true }) = r at h1 ⊢
      cases r with
      | ok x w1 => exact TInv.setPub (w := w1) h1 _ (fun h => absurd h hp)
      | throw x w1 => exact h1
      | ub r => exact h1
    · exact hi

end

/-- A call of the program. -/
theorem act_top (hh : ∀ s e l, ∀ a ∈ env.handler s e l, a.handlerOk P M) (deep : Nat → Act → Prop) (h0 : ∀ a, ¬ deep 0 a)
    (hs : ∀ n a e, deep (n + 1) a → a.raises env e → ∀ s l, ∀ b ∈ env.handler s e l, deep n b) (n : Nat) (a : Act) (w : PW)
    (ha : a.programOk P M) (hi : TInv P M w) : TGood P M (deep n a) (act env n a w) := by
  cases n with
  | zero => exact ⟨rfl, h0 a⟩
  | succ n =>
    have hd : DGood P M (deep (n + 1) a) (fun e => a.raises env e) (deliver env (act env n)) := by
      refine deliver_good _ (fun s e l he b hb w hi => ?_)
      have h1 := act_good hh deep h0 hs n b w (hh s e l b hb) hi
      cases hr : act env n b w with
      | ok x w1 => rw [hr] at h1; exact h1
      | throw x w1 => rw [hr] at h1; exact h1
      | ub r => rw [hr] at h1; exact ⟨h1.1, fun hdp => h1.2 (hs n a e hdp he s l b hb)⟩
    cases a with
    | subscribe s p b =>
      exact subSubscribe_top hd s p ha b (fun hb => ⟨fun l e he => ⟨hb, .inl ⟨l, he⟩⟩, fun q l e he => ⟨hb, .inr ⟨q, l, he⟩⟩⟩) w hi
    | unsubscribe s => exact subUnsubscribe_top hd s w hi
    | pubSubscribe p s b => exact pubSubscribe_top hd p s b (fun hb l e he => ⟨hb, l, he⟩) w hi
    | pubUnsubscribe p s b => exact pubUnsubscribe_top hd p s b (fun hb l e he => ⟨hb, l, he⟩) w hi
    | enable p b => exact (act_good hh deep h0 hs (n + 1) (.enable p b) w trivial hi.1).top hi.2
    | notify p e => exact notify_top hd p e rfl w hi
    | destroySub s => exact ha.elim
    | destroyPub p => exact ha.elim
    | fail => exact hi

theorem run_top (hh : ∀ s e l, ∀ a ∈ env.handler s e l, a.handlerOk P M) (n : Nat) (h : List Act)
    (hp : ∀ a ∈ h, a.programOk P M) (w w' : PW) (hi : TInv P M w) (hr : PW.run env n h w = some w') : TInv P M w' := by
  induction h generalizing w with
  | nil => simp [PW.run] at hr; exact hr ▸ hi
  | cons a h ih =>
    have h1 := act_top hh (fun _ _ => False) (fun _ h => h) (fun _ _ _ h => h.elim) n a w (hp a (by simp)) hi
    unfold PW.run at hr
    cases e : act env n a w with
    | ok x w1 => rw [e] at h1 hr; exact ih (fun b hb => hp b (by simp [hb])) w1 h1 hr
    | throw x w1 => rw [e] at h1 hr; exact ih (fun b hb => hp b (by simp [hb])) w1 h1 hr
    | ub r => rw [e] at hr; cases hr

theorem init_tinv : TInv P M PW.init := ⟨⟨rfl, rfl, fun _ _ => ⟨rfl, rfl⟩, fun _ _ _ h => by cases h⟩, fun _ _ => rfl⟩

/-! ## Handlers that do both -/

theorem foldl_push_changes (l : List SubId) (x : Pub) : (l.foldl (fun y s => pushSub s y) x).changes = x.changes + l.length := by
  induction l generalizing x with
  | nil => rfl
  | cons a l ih => rw [List.foldl_cons, ih]; simp only [pushSub, List.length_cons]; omega

theorem foldl_unsub_changes (l : List SubId) (x : Pub) : x.changes ≤ (l.foldl (fun y s => unsubInternal s y) x).changes := by
  induction l generalizing x with
  | nil => exact Nat.le_refl _
  | cons a l ih =>
    rw [List.foldl_cons]
    refine Nat.le_trans ?_ (ih _)
    unfold unsubInternal; split
    · exact Nat.le_succ _
    · exact Nat.le_refl _

theorem notifyEnd_changes (x : Pub) : x.changes + x.toBeSubscribed.length ≤ (notifyEnd x).changes := by
  unfold notifyEnd
  simp only
  refine Nat.le_trans ?_ (foldl_unsub_changes _ _)
  simp [foldl_push_changes]

theorem notifyEnd_in (x : Pub) : (notifyEnd x).insideNotify = false := rfl

/-- an event that no handler reacts to -/
theorem notify_ignored (run : Act → PW → Res PW Unit) (p : PubId) (e : Event) (he : ∀ s l, env.handler s e l = []) (w : PW)
    (hS : w.deadSubs = []) (hP : w.deadPubs = []) (hen : (w.pubs p).enabled = true) :
    ∃ w', PW.notify (deliver env run) p e w = .ok () w' ∧ w'.pubs p = notifyEnd { w.pubs p with insideNotify := true } ∧
      w'.deadPubs = [] := by
  have hl : ∀ (l : List SubId) (w : PW), w.deadSubs = [] → ∃ g, notifyLoop (deliver env run) p e (w.pubs p).changes l w =
      .ok () { w with log := g } := by
    intro l
    induction l with
    | nil => intro w _; exact ⟨w.log, rfl⟩
    | cons s l ih =>
      intro w hS
      have hdel : deliver env run s e w = .ok () { w with log := w.log ++ [(s, e)] } := by simp [deliver, hS, he, seqAll]
      obtain ⟨g, hg⟩ := ih { w with log := w.log ++ [(s, e)] } hS
      exact ⟨g, by unfold notifyLoop; rw [hdel]; simpa using hg⟩
  unfold PW.notify
  rw [if_neg (by simp [hP]), if_pos hen]
  obtain ⟨g, hg⟩ := hl ((w.setPub p { w.pubs p with insideNotify := true }).pubs p).subscribers
    (w.setPub p { w.pubs p with insideNotify := true }) hS
  simp only [hg]
  exact ⟨_, rfl, by simp [PW.setPub], hP⟩

/-- the loop reaches a handler that changes the vector -/
theorem loop_broken (run : Act → PW → Res PW Unit) (p : PubId) (s : SubId) (e : Event)
    (ho : ∀ t l, t ≠ s → env.handler t e l = []) (l : List SubId) (hs : s ∈ l) (w : PW) (hS : w.deadSubs = [])
    (hb : ∀ g, ∃ w', seqAll run (env.handler s e g) { w with log := g } = .ok () w' ∧ (w.pubs p).changes < (w'.pubs p).changes) :
    notifyLoop (deliver env run) p e (w.pubs p).changes l w = .ub "notify: invalidated iterator" := by
  induction l generalizing w with
  | nil => cases hs
  | cons t l ih =>
    unfold notifyLoop
    by_cases hts : t = s
    · subst hts
      obtain ⟨w', h1, h2⟩ := hb (w.log ++ [(t, e)])
      have hdel : deliver env run t e w = .ok () w' := by
        unfold deliver; rw [if_neg (by simp [hS])]; exact h1
      rw [hdel]
      simp only
      rw [if_neg (by omega)]
    · have hdel : deliver env run t e w = .ok () { w with log := w.log ++ [(t, e)] } := by simp [deliver, hS, ho t _ hts, seqAll]
      rw [hdel]
      simp only [if_true]
      exact ih ((List.mem_cons.1 hs).resolve_left (Ne.symm hts)) { w with log := w.log ++ [(t, e)] } hS hb

theorem pubSubscribe_false (d : SubId → Event → PW → Res PW Unit) (p : PubId) (t : SubId) (w : PW) (hP : w.deadPubs = []) :
    PW.pubSubscribe env d p t false w = .ok () (w.setPub p (enter t (w.pubs p))) := by
  simp [PW.pubSubscribe, hP]

theorem subscribe_raise (p : PubId) (t : SubId) (e : Event) (he : ∀ x l, env.handler x e l = []) (n : Nat) (w : PW)
    (hS : w.deadSubs = []) (hP : w.deadPubs = []) (hen : (w.pubs p).enabled = true) (hin : (w.pubs p).insideNotify = true) :
    ∃ w', seqAll (act env (n + 1)) [.pubSubscribe p t false, .notify p e] w = .ok () w' ∧ (w.pubs p).changes < (w'.pubs p).changes := by
  obtain ⟨w2, h2, h3, _⟩ := notify_ignored (env := env) (act env n) p e he (w.setPub p (enter t (w.pubs p))) hS hP
    (by simp [PW.setPub, enter, hin, hen])
  refine ⟨w2, ?_, ?_⟩
  · simp only [seqAll, act, pubSubscribe_false _ p t w hP, h2]
  · rw [h3]
    refine Nat.lt_of_lt_of_le ?_ (notifyEnd_changes _)
    simp [PW.setPub, enter, hin]

theorem raise_subscribe (p : PubId) (t : SubId) (e : Event) (he : ∀ x l, env.handler x e l = []) (n : Nat) (w : PW)
    (hS : w.deadSubs = []) (hP : w.deadPubs = []) (hen : (w.pubs p).enabled = true) :
    ∃ w', seqAll (act env (n + 1)) [.notify p e, .pubSubscribe p t false] w = .ok () w' ∧ (w.pubs p).changes < (w'.pubs p).changes := by
  obtain ⟨w2, h2, h3, h4⟩ := notify_ignored (env := env) (act env n) p e he w hS hP hen
  refine ⟨w2.setPub p (enter t (w2.pubs p)), ?_, ?_⟩
  · simp only [seqAll, act, h2, pubSubscribe_false _ p t w2 h4]
  · have h5 := notifyEnd_changes { w.pubs p with insideNotify := true }
    have h6 : (w2.pubs p).insideNotify = false := by rw [h3]; exact notifyEnd_in _
    rw [← h3] at h5
    have h7 : ((w2.setPub p (enter t (w2.pubs p))).pubs p).changes = (w2.pubs p).changes + 1 := by simp [PW.setPub, enter, h6, pushSub]
    rw [h7]
    simp only at h5
    omega

end Verif
