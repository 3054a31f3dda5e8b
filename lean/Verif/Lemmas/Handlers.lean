import Verif.Spec.Handlers
import Verif.Lemmas.Publisher
/-!
# Lemmas about handlers that subscribe and unsubscribe
-/
set_option linter.unusedSectionVars false
set_option linter.unusedSimpArgs false

namespace Verif
open PW

/-- a wish carried out by the publisher of the model -/
def applyEff (x : Pub) : Eff → Pub
  | .join s => enter s x
  | .quit s => leave s x

/-- the subscribers know what `pts` says, and nothing was destroyed -/
structure PRel (p : PubId) (pts : SubId → Bool) (w : PW) : Prop where
  ptr : ∀ s, w.ptr s = if pts s then some p else none
  noDeadS : w.deadSubs = []
  noDeadP : w.deadPubs = []

theorem pubSubscribe_quiet (env : PEnv) (d : SubId → Event → PW → Res PW Unit) (p : PubId) (s : SubId) (w : PW)
    (hp : w.deadPubs = []) : pubSubscribe env d p s false w = .ok () (w.setPub p (enter s (w.pubs p))) := by
  simp [pubSubscribe, hp]

theorem pubUnsubscribe_quiet (env : PEnv) (d : SubId → Event → PW → Res PW Unit) (p : PubId) (s : SubId) (w : PW)
    (hp : w.deadPubs = []) : pubUnsubscribe env d p s false w = .ok () (w.setPub p (leave s (w.pubs p))) := by
  simp [pubUnsubscribe, hp]

theorem quiet_act (env : PEnv) (n : Nat) {p : PubId} {pts : SubId → Bool} {w : PW} (hr : PRel p pts w) {a : Act}
    (ha : a.quiet p) : ∃ w', act env (n + 1) a w = .ok () w' ∧ w'.pubs p = (wishes pts a).foldl applyEff (w.pubs p) ∧
      w'.log = w.log ∧ PRel p (known pts a) w' := by
  cases a <;> simp [Act.quiet] at ha
  · rename_i s q b
    obtain ⟨rfl, rfl⟩ := ha
    simp only [act]
    unfold subSubscribe leaveOld
    rw [hr.noDeadS, if_neg (by simp), hr.ptr]
    by_cases hs : pts s
    · simp only [hs, if_true]
      rw [pubUnsubscribe_quiet env _ q s w hr.noDeadP]
      simp only
      rw [pubSubscribe_quiet]
      · refine ⟨_, rfl, ?_, rfl, fun t => ?_, hr.noDeadS, hr.noDeadP⟩
        · simp [setPub, setPtr, wishes, hs, applyEff]
        · simp only [setPub, setPtr, known]; split
          · simp
          · exact hr.ptr t
      · simp [setPub, setPtr, hr.noDeadP]
    · simp only [hs, Bool.false_eq_true, if_false]
      rw [pubSubscribe_quiet]
      · refine ⟨_, rfl, ?_, rfl, fun t => ?_, hr.noDeadS, hr.noDeadP⟩
        · simp [setPub, setPtr, wishes, hs, applyEff]
        · simp only [setPub, setPtr, known]; split
          · simp
          · exact hr.ptr t
      · simp [setPub, setPtr, hr.noDeadP]
  · rename_i s
    simp only [act]
    unfold subUnsubscribe
    rw [hr.noDeadS, if_neg (by simp), hr.ptr]
    by_cases hs : pts s
    · simp only [hs, if_true]
      rw [pubUnsubscribe_quiet env _ p s w hr.noDeadP]
      refine ⟨_, rfl, ?_, rfl, fun t => ?_, hr.noDeadS, hr.noDeadP⟩
      · simp [setPub, setPtr, wishes, hs, applyEff]
      · simp only [setPub, setPtr, known]; split
        · simp
        · exact hr.ptr t
    · simp only [hs]
      refine ⟨w, rfl, ?_, rfl, fun t => ?_, hr.noDeadS, hr.noDeadP⟩
      · simp [wishes, hs]
      · simp only [known]; split
        · rename_i h; subst h; rw [hr.ptr]; simp [hs]
        · exact hr.ptr t
  · rename_i q s b
    obtain ⟨rfl, rfl⟩ := ha
    simp only [act]
    rw [pubSubscribe_quiet env _ q s w hr.noDeadP]
    exact ⟨_, rfl, by simp [setPub, wishes, applyEff], rfl, hr.ptr, hr.noDeadS, hr.noDeadP⟩
  · rename_i q s b
    obtain ⟨rfl, rfl⟩ := ha
    simp only [act]
    rw [pubUnsubscribe_quiet env _ q s w hr.noDeadP]
    exact ⟨_, rfl, by simp [setPub, wishes, applyEff], rfl, hr.ptr, hr.noDeadS, hr.noDeadP⟩

theorem quiet_acts (env : PEnv) (n : Nat) {p : PubId} (as : List Act) {pts : SubId → Bool} {w : PW} (hr : PRel p pts w)
    (ha : ∀ a ∈ as, a.quiet p) : ∃ w', seqAll (act env (n + 1)) as w = .ok () w' ∧
      w'.pubs p = (wishesAll pts as).foldl applyEff (w.pubs p) ∧ w'.log = w.log ∧ PRel p (knownAll pts as) w' := by
  induction as generalizing pts w with
  | nil => exact ⟨w, rfl, rfl, rfl, hr⟩
  | cons a as ih =>
    obtain ⟨w1, e1, h1, h2, h3⟩ := quiet_act env n hr (ha a (by simp))
    obtain ⟨w2, e2, h4, h5, h6⟩ := ih h3 (fun b hb => ha b (by simp [hb]))
    refine ⟨w2, ?_, ?_, ?_, h6⟩
    · unfold seqAll; rw [e1]; exact e2
    · rw [h4, h1]; simp [wishesAll]
    · rw [h5, h2]

theorem applyEff_inside (ws : List Eff) {x : Pub} (hx : x.insideNotify = true) :
    ws.foldl applyEff x = { x with toBeSubscribed := x.toBeSubscribed ++ joins ws,
                                   toBeUnsubscribed := x.toBeUnsubscribed ++ quits ws } := by
  induction ws generalizing x with
  | nil => simp [joins, quits]
  | cons e ws ih =>
    rw [List.foldl_cons]
    cases e with
    | join s =>
      have : applyEff x (.join s) = { x with toBeSubscribed := x.toBeSubscribed ++ [s] } := by
        simp [applyEff, enter, hx]
      rw [this, ih (by exact hx)]
      simp [joins, quits]
    | quit s =>
      have : applyEff x (.quit s) = { x with toBeUnsubscribed := x.toBeUnsubscribed ++ [s] } := by
        simp [applyEff, leave, hx]
      rw [this, ih (by exact hx)]
      simp [joins, quits]

theorem unsubInternal_subs (s : SubId) (x : Pub) : (unsubInternal s x).subscribers = x.subscribers.erase s := by
  unfold unsubInternal; split
  · rfl
  · rename_i h; exact (List.erase_of_not_mem h).symm

theorem applyEff_outside (ws : List Eff) {x : Pub} (hx : x.insideNotify = false) :
    (ws.foldl applyEff x).subscribers = ws.foldl Eff.now x.subscribers ∧ (ws.foldl applyEff x).insideNotify = false ∧
      (ws.foldl applyEff x).toBeSubscribed = x.toBeSubscribed ∧ (ws.foldl applyEff x).toBeUnsubscribed = x.toBeUnsubscribed ∧
      (ws.foldl applyEff x).enabled = x.enabled := by
  induction ws generalizing x with
  | nil => simp [hx]
  | cons e ws ih =>
    rw [List.foldl_cons, List.foldl_cons]
    cases e with
    | join s =>
      have : applyEff x (.join s) = pushSub s x := by simp [applyEff, enter, hx]
      rw [this]
      exact ih (x := pushSub s x) hx
    | quit s =>
      have : applyEff x (.quit s) = unsubInternal s x := by simp [applyEff, leave, hx]
      rw [this]
      have h1 : (unsubInternal s x).insideNotify = false ∧ (unsubInternal s x).toBeSubscribed = x.toBeSubscribed ∧
          (unsubInternal s x).toBeUnsubscribed = x.toBeUnsubscribed ∧ (unsubInternal s x).enabled = x.enabled := by
        unfold unsubInternal; split <;> exact ⟨hx, rfl, rfl, rfl⟩
      have := ih (x := unsubInternal s x) h1.1
      rw [unsubInternal_subs] at this
      rw [h1.2.1, h1.2.2.1, h1.2.2.2] at this
      exact this

/-- The loop of `notify`: everybody in the list is called, the wishes are collected. -/
theorem notifyLoop_quiet (env : PEnv) (n : Nat) {p : PubId} (hq : ∀ s e l, ∀ a ∈ env.handler s e l, a.quiet p) (e : Event)
    (ss : List SubId) {pts : SubId → Bool} {w : PW} (hr : PRel p pts w) (hin : (w.pubs p).insideNotify = true) :
    ∃ w', notifyLoop (deliver env (act env (n + 1))) p e (w.pubs p).changes ss w = .ok () w' ∧
      w'.pubs p = { w.pubs p with
        toBeSubscribed := (w.pubs p).toBeSubscribed ++ joins (wishesAll pts (handlerCalls env e w.log ss)),
        toBeUnsubscribed := (w.pubs p).toBeUnsubscribed ++ quits (wishesAll pts (handlerCalls env e w.log ss)) } ∧
      w'.log = w.log ++ ss.map (fun s => (s, e)) ∧ PRel p (knownAll pts (handlerCalls env e w.log ss)) w' := by
  induction ss generalizing pts w with
  | nil => exact ⟨w, rfl, by simp [handlerCalls, wishesAll, joins, quits], by simp, hr⟩
  | cons s ss ih =>
    have hdel : deliver env (act env (n + 1)) s e w =
        seqAll (act env (n + 1)) (env.handler s e (w.log ++ [(s, e)])) { w with log := w.log ++ [(s, e)] } := by
      unfold deliver; rw [if_neg (by simp [hr.noDeadS])]
    unfold notifyLoop
    rw [hdel]
    have hr1 : PRel p pts { w with log := w.log ++ [(s, e)] } := ⟨hr.ptr, hr.noDeadS, hr.noDeadP⟩
    obtain ⟨w1, e1, h1, h2, h3⟩ := quiet_acts env n (env.handler s e (w.log ++ [(s, e)])) hr1 (hq _ _ _)
    rw [e1]
    have h1' : w1.pubs p = { w.pubs p with
        toBeSubscribed := (w.pubs p).toBeSubscribed ++ joins (wishesAll pts (env.handler s e (w.log ++ [(s, e)]))),
        toBeUnsubscribed := (w.pubs p).toBeUnsubscribed ++ quits (wishesAll pts (env.handler s e (w.log ++ [(s, e)]))) } := by
      rw [h1]; exact applyEff_inside _ hin
    have hc : (w1.pubs p).changes = (w.pubs p).changes := by rw [h1']
    simp only [hc, if_true]
    obtain ⟨w2, e2, h4, h5, h6⟩ := ih h3 (by rw [h1']; exact hin)
    rw [hc] at e2
    have happ : ∀ (l1 l2 : List Act) (q : SubId → Bool), wishesAll q (l1 ++ l2) = wishesAll q l1 ++ wishesAll (knownAll q l1) l2 := by
      intro l1; induction l1 with
      | nil => intros; rfl
      | cons a l1 ihl => intro l2 q; simp only [List.cons_append, wishesAll, knownAll]; rw [ihl]; simp
    have hkn : ∀ (l1 l2 : List Act) (q : SubId → Bool), knownAll q (l1 ++ l2) = knownAll (knownAll q l1) l2 := by
      intro l1; induction l1 with
      | nil => intros; rfl
      | cons a l1 ihl => intro l2 q; simp only [List.cons_append, knownAll]; rw [ihl]
    have hlog : w1.log = w.log ++ [(s, e)] := h2
    refine ⟨w2, e2, ?_, ?_, ?_⟩
    · rw [h4, h1']
      simp only [handlerCalls, hlog, happ]
      simp [joins, quits]
    · rw [h5, hlog]; simp
    · rw [hlog] at h6; simp only [handlerCalls, hkn]; exact h6

theorem foldl_pushSub (l : List SubId) (x : Pub) :
    (l.foldl (fun y s => pushSub s y) x).subscribers = x.subscribers ++ l ∧
      (l.foldl (fun y s => pushSub s y) x).toBeUnsubscribed = x.toBeUnsubscribed ∧
      (l.foldl (fun y s => pushSub s y) x).enabled = x.enabled := by
  induction l generalizing x with
  | nil => simp
  | cons s l ih =>
    have := ih (pushSub s x)
    refine ⟨?_, this.2.1.trans rfl, this.2.2.trans rfl⟩
    rw [List.foldl_cons, this.1]; simp [pushSub]

theorem foldl_unsub (l : List SubId) (x : Pub) :
    (l.foldl (fun y s => unsubInternal s y) x).subscribers = l.foldl List.erase x.subscribers ∧
      (l.foldl (fun y s => unsubInternal s y) x).toBeSubscribed = x.toBeSubscribed ∧
      (l.foldl (fun y s => unsubInternal s y) x).toBeUnsubscribed = x.toBeUnsubscribed ∧
      (l.foldl (fun y s => unsubInternal s y) x).enabled = x.enabled := by
  induction l generalizing x with
  | nil => simp
  | cons s l ih =>
    have := ih (unsubInternal s x)
    rw [List.foldl_cons, List.foldl_cons]
    have h1 : (unsubInternal s x).toBeSubscribed = x.toBeSubscribed ∧
          (unsubInternal s x).toBeUnsubscribed = x.toBeUnsubscribed ∧ (unsubInternal s x).enabled = x.enabled := by
        unfold unsubInternal; split <;> exact ⟨rfl, rfl, rfl⟩
    refine ⟨?_, this.2.1.trans h1.1, this.2.2.1.trans h1.2.1, this.2.2.2.trans h1.2.2⟩
    rw [this.1, unsubInternal_subs]

theorem notifyEnd_eq (x : Pub) : (notifyEnd x).subscribers = x.toBeUnsubscribed.foldl List.erase (x.subscribers ++ x.toBeSubscribed) ∧
    (notifyEnd x).insideNotify = false ∧ (notifyEnd x).toBeSubscribed = [] ∧
    (notifyEnd x).toBeUnsubscribed = x.toBeUnsubscribed ∧ (notifyEnd x).enabled = x.enabled := by
  unfold notifyEnd
  simp only
  set x1 := x.toBeSubscribed.foldl (fun y s => pushSub s y) x with hx1
  obtain ⟨h1, h2, h3⟩ := foldl_pushSub x.toBeSubscribed x
  rw [← hx1] at h1 h2 h3
  obtain ⟨g1, g2, g3, g4⟩ := foldl_unsub x1.toBeUnsubscribed { x1 with toBeSubscribed := [] }
  refine ⟨?_, trivial, g2, ?_, ?_⟩
  · rw [g1, ← h2]; simp only [h1]
  · rw [g3]; exact h2
  · rw [g4]; exact h3

/-- One event, handlers that subscribe and unsubscribe: everybody in the list gets it; afterwards the wishes are carried out,
together with the unsubscriptions that are left over from earlier events. -/
theorem notify_quiet (env : PEnv) (n : Nat) {p : PubId} (hq : ∀ s e l, ∀ a ∈ env.handler s e l, a.quiet p) (e : Event)
    {pts : SubId → Bool} {w : PW} (hr : PRel p pts w) (hen : (w.pubs p).enabled = true) (hts : (w.pubs p).toBeSubscribed = []) :
    ∃ w', act env (n + 2) (.notify p e) w = .ok () w' ∧
      w'.log = w.log ++ (w.pubs p).subscribers.map (fun s => (s, e)) ∧
      (w'.pubs p).subscribers =
        ((w.pubs p).toBeUnsubscribed ++ quits (wishesAll pts (handlerCalls env e w.log (w.pubs p).subscribers))).foldl List.erase
          ((w.pubs p).subscribers ++ joins (wishesAll pts (handlerCalls env e w.log (w.pubs p).subscribers))) ∧
      (w'.pubs p).insideNotify = false ∧ (w'.pubs p).toBeSubscribed = [] ∧
      (w'.pubs p).toBeUnsubscribed =
        (w.pubs p).toBeUnsubscribed ++ quits (wishesAll pts (handlerCalls env e w.log (w.pubs p).subscribers)) ∧
      (w'.pubs p).enabled = true ∧
      PRel p (knownAll pts (handlerCalls env e w.log (w.pubs p).subscribers)) w' := by
  show ∃ w', PW.notify (deliver env (act env (n + 1))) p e w = .ok () w' ∧ _
  unfold PW.notify
  rw [hr.noDeadP, if_neg (by simp), if_pos hen]
  simp only
  have hr1 : PRel p pts (w.setPub p { w.pubs p with insideNotify := true }) := ⟨hr.ptr, hr.noDeadS, hr.noDeadP⟩
  obtain ⟨w1, e1, h1, h2, h3⟩ := notifyLoop_quiet env n hq e (w.pubs p).subscribers hr1 (by simp [setPub])
  have hx : ((w.setPub p { w.pubs p with insideNotify := true }).pubs p) = { w.pubs p with insideNotify := true } := by simp [setPub]
  rw [hx] at e1 h1 ⊢
  simp only at e1 h1 ⊢
  rw [e1]
  obtain ⟨k1, k2, k3, k4, k5⟩ := notifyEnd_eq (w1.pubs p)
  rw [h1] at k1 k2 k3 k4 k5
  have hset : ((w1.setPub p (notifyEnd (w1.pubs p))).pubs p) = notifyEnd (w1.pubs p) := by simp [setPub]
  refine ⟨_, rfl, h2, ?_, ?_, ?_, ?_, ?_, ⟨h3.ptr, h3.noDeadS, h3.noDeadP⟩⟩
  · rw [hset, h1, k1]; simp [hts, setPub]
  · rw [hset, h1]; exact k2
  · rw [hset, h1]; exact k3
  · rw [hset, h1, k4]; simp [setPub]
  · rw [hset, h1, k5]; exact hen

theorem foldl_erase_absent (l m : List SubId) (h : ∀ s ∈ l, s ∉ m) : l.foldl List.erase m = m := by
  induction l generalizing m with
  | nil => rfl
  | cons s l ih =>
    rw [List.foldl_cons, List.erase_of_not_mem (h s (by simp))]
    exact ih m (fun t ht => h t (by simp [ht]))

/-- model and ideal publisher agree -/
structure IRel (p : PubId) (x : Ideal) (w : PW) : Prop where
  rel : PRel p x.pts w
  list : (w.pubs p).subscribers = x.list
  log : w.log = x.log
  gone : (w.pubs p).toBeUnsubscribed = x.gone
  toSub : (w.pubs p).toBeSubscribed = []
  enab : (w.pubs p).enabled = true
  inside : (w.pubs p).insideNotify = false

theorem Ideal.fine_of_step {env : PEnv} {x : Ideal} {a : Act} (h : (Ideal.step env x a).fine) : x.fine := by
  cases a <;> first | exact h | exact h.1

theorem Ideal.fine_of_run {env : PEnv} (h : List Act) {x : Ideal} (hf : (Ideal.run env x h).fine) : x.fine := by
  induction h generalizing x with
  | nil => exact hf
  | cons a h ih => exact Ideal.fine_of_step (ih (x := Ideal.step env x a) hf)

theorem IRel.step (env : PEnv) (n : Nat) {p : PubId} (hq : ∀ s e l, ∀ a ∈ env.handler s e l, a.quiet p) {x : Ideal} {w : PW}
    (hr : IRel p x w) {a : Act} (ha : a.quiet p ∨ ∃ e, a = .notify p e) (hf : (Ideal.step env x a).fine) :
    ∃ w', act env (n + 2) a w = .ok () w' ∧ IRel p (Ideal.step env x a) w' := by
  rcases ha with ha | ⟨e, rfl⟩
  · obtain ⟨w', e1, h1, h2, h3⟩ := quiet_act env (n + 1) hr.rel ha
    obtain ⟨g1, g2, g3, g4, g5⟩ := applyEff_outside (wishes x.pts a) hr.inside
    rw [← h1] at g1 g2 g3 g4 g5
    have hst : Ideal.step env x a = { x with list := (wishes x.pts a).foldl Eff.now x.list, pts := known x.pts a } := by
      cases a <;> first | rfl | simp [Act.quiet] at ha
    rw [hst]
    exact ⟨w', e1, h3, by rw [g1, hr.list], by rw [h2, hr.log], by rw [g4, hr.gone], by rw [g3, hr.toSub], by rw [g5, hr.enab], g2⟩
  · obtain ⟨w', e1, h1, h2, h3, h4, h5, h6, h7⟩ := notify_quiet env n hq e hr.rel hr.enab hr.toSub
    refine ⟨w', e1, ?_, ?_, ?_, ?_, h4, h6, h3⟩
    · rw [hr.list, hr.log] at h7; exact h7
    · rw [h2, hr.list, hr.log, hr.gone, List.foldl_append]
      have := hf.2
      rw [foldl_erase_absent _ _ this]
      rfl
    · rw [h1, hr.list, hr.log]; rfl
    · rw [h5, hr.list, hr.log, hr.gone]; rfl

theorem IRel.run (env : PEnv) (n : Nat) {p : PubId} (hq : ∀ s e l, ∀ a ∈ env.handler s e l, a.quiet p) (h : List Act)
    {x : Ideal} {w : PW} (hr : IRel p x w) (ha : ∀ a ∈ h, a.quiet p ∨ ∃ e, a = .notify p e) (hf : (Ideal.run env x h).fine) :
    ∃ w', PW.run env (n + 2) h w = some w' ∧ IRel p (Ideal.run env x h) w' := by
  induction h generalizing x w with
  | nil => exact ⟨w, rfl, hr⟩
  | cons a h ih =>
    have hf1 : (Ideal.step env x a).fine := Ideal.fine_of_run h (x := Ideal.step env x a) hf
    obtain ⟨w1, e1, hr1⟩ := hr.step env n hq (ha a (by simp)) hf1
    obtain ⟨w2, e2, hr2⟩ := ih hr1 (fun b hb => ha b (by simp [hb])) hf
    exact ⟨w2, by simp only [PW.run, e1]; exact e2, hr2⟩

theorem IRel.init (p : PubId) : IRel p Ideal.init PW.init := ⟨⟨fun _ => rfl, rfl, rfl⟩, rfl, rfl, rfl, rfl, rfl, rfl⟩

end Verif
