import Verif.Spec.Widget
import Mathlib.Data.List.Induction
import Mathlib.Data.List.Nodup
import Mathlib.Data.List.Range
/-! # C83: the 2D widget shows the last graph that it was given -/

namespace Verif
open Widget
variable {D : Type}

/-- Once the widget has nothing left to do it shows the last text that it was given, whatever the order in which the threads ran.  Pausing
stops the drawing: no text that is given while the widget is paused is drawn.  The layout thread never crashes. -/
def C83_statement (D : Type) : Prop :=
  ∀ (readable : D → Bool) (l : List (Act D)),
    ((exec readable l).Idle → (exec readable l).shown.map Prod.snd = (sent l).getLast?) ∧
    (∀ l', (exec readable l).pause = true → Act.toggle ∉ l' → (exec readable (l ++ l')).next = (exec readable l).next) ∧
    (exec readable l).phase ≠ .crashed

private theorem watch_fst (readable : D → Bool) (l : List (Act D)) : (watch readable l).1 = exec readable l := by
  induction l using List.reverseRecOn with
  | nil => rfl
  | append_singleton l a ih => simp only [watch, exec, List.foldl_append, List.foldl_cons, List.foldl_nil] at ih ⊢; rw [ih]

/-- text in the hands of the layout thread -/
private def inHand : Phase D → List D
  | .drawing d => [d]
  | _ => []

private structure Inv (S : List D) (w : W D) (out : List D) : Prop where
  cur : w.cur = S.getLast?
  need : w.need = true → ∃ pre rest, S = pre ++ rest ∧ rest ≠ [] ∧ (out ++ w.posted.map Prod.snd ++ inHand w.phase).Sublist pre
  idle : w.need = false → (out ++ w.posted.map Prod.snd ++ inHand w.phase).Sublist S ∧
    (w.phase ≠ .crashed → (out ++ w.posted.map Prod.snd ++ inHand w.phase).getLast? = S.getLast?)
  wants : w.phase = .testPause ∨ w.phase = .checked → w.need = true
  last : out.getLast? = w.shown.map Prod.snd
  ids : w.freed ++ (w.shown.map Prod.fst).toList ++ w.posted.map Prod.fst = List.range w.next
  box : w.box = w.pause

private theorem inv_keep {S : List D} {w w' : W D} {out : List D} (h : Inv S w out) (h1 : w'.cur = w.cur) (h2 : w'.need = w.need)
    (h3 : w'.posted = w.posted) (h4 : w'.shown = w.shown) (h5 : w'.freed = w.freed) (h6 : w'.next = w.next)
    (h7 : inHand w'.phase = inHand w.phase) (h8 : w'.phase = .testPause ∨ w'.phase = .checked → w.need = true)
    (h9 : w'.phase = .crashed ↔ w.phase = .crashed) (h10 : w'.box = w'.pause) : Inv S w' out := by
  refine ⟨h1 ▸ h.cur, ?_, ?_, ?_, h4 ▸ h.last, ?_, h10⟩
  · rw [h2, h3, h7]; exact h.need
  · rw [h2, h3, h7]
    intro hn
    exact ⟨(h.idle hn).1, fun hc => (h.idle hn).2 (fun hh => hc (h9.2 hh))⟩
  · rw [h2]; exact h8
  · rw [h3, h4, h5, h6]; exact h.ids

private theorem inv_run (readable : D → Bool) (l : List (Act D)) :
    Inv (sent l) (exec readable l) (watch readable l).2 := by
  induction l using List.reverseRecOn with
  | nil => exact ⟨rfl, nofun, fun _ => ⟨by simp [watch, exec, inHand], fun _ => rfl⟩, by simp [exec], rfl, rfl, rfl⟩
  | append_singleton l a ih =>
    have e1 : exec readable (l ++ [a]) = a.app readable (exec readable l) := by simp [exec]
    have e2 : (watch readable (l ++ [a])).2 = (watch readable l).2 ++ put a (exec readable l).posted := by
      rw [← watch_fst]
      simp only [watch, List.foldl_append, List.foldl_cons, List.foldl_nil]
    rw [e1, e2]
    generalize exec readable l = w at *
    generalize (watch readable l).2 = out at *
    have hs : sent (l ++ [a]) = sent l ++ sent [a] := List.filterMap_append
    rw [hs]
    generalize sent l = S at *
    cases a with
    | display d =>
      have e3 : sent [Act.display d] = [d] := rfl
      rw [e3, show put (Act.display d) w.posted = [] from rfl, List.append_nil]
      simp only [Act.app, display]
      refine ⟨by simp, ?_, nofun, fun _ => rfl, ih.last, ih.ids, ih.box⟩
      intro _
      cases hn : w.need with
      | true =>
        obtain ⟨pre, rest, r1, r2, r3⟩ := ih.need hn
        exact ⟨pre, rest ++ [d], by rw [r1, List.append_assoc], by simp, r3⟩
      | false => exact ⟨S, [d], rfl, by simp, (ih.idle hn).1⟩
    | toggle =>
      have e3 : sent [(Act.toggle : Act D)] = [] := rfl
      rw [e3, List.append_nil, show put Act.toggle w.posted = [] from rfl, List.append_nil]
      exact inv_keep ih rfl rfl rfl rfl rfl rfl rfl ih.wants Iff.rfl (congrArg Bool.not ih.box)
    | close =>
      have e3 : sent [(Act.close : Act D)] = [] := rfl
      rw [e3, List.append_nil, show put Act.close w.posted = [] from rfl, List.append_nil]
      exact inv_keep ih rfl rfl rfl rfl rfl rfl rfl ih.wants Iff.rfl ih.box
    | deliver =>
      have e3 : sent [(Act.deliver : Act D)] = [] := rfl
      rw [e3, List.append_nil]
      simp only [Act.app, deliver]
      cases hp : w.posted with
      | nil => simpa [put] using ih
      | cons r m =>
        rw [show put Act.deliver (r :: m) = [r.2] from rfl]
        have e4 : out ++ [r.2] ++ m.map Prod.snd = out ++ w.posted.map Prod.snd := by simp [hp]
        refine ⟨ih.cur, ?_, ?_, ih.wants, by simp, ?_, ih.box⟩
        · intro hn
          obtain ⟨pre, rest, r1, r2, r3⟩ := ih.need hn
          exact ⟨pre, rest, r1, r2, by show (out ++ [r.2] ++ m.map Prod.snd ++ _).Sublist pre; rw [e4]; exact r3⟩
        · intro hn
          have := ih.idle hn
          rw [← e4] at this
          exact this
        · have := ih.ids
          rw [hp] at this
          simpa using this
    | layout =>
      have e3 : sent [(Act.layout : Act D)] = [] := rfl
      rw [e3, List.append_nil, show put Act.layout w.posted = [] from rfl, List.append_nil]
      simp only [Act.app, layout]
      cases hph : w.phase with
      | top =>
        dsimp only
        split <;> exact inv_keep ih rfl rfl rfl rfl rfl rfl (by simp [inHand, hph]) (by simp) (by simp [hph]) ih.box
      | slept =>
        dsimp only
        split <;> exact inv_keep ih rfl rfl rfl rfl rfl rfl (by simp [inHand, hph]) (by simp) (by simp [hph]) ih.box
      | testNeed =>
        dsimp only
        split
        · next hn => exact inv_keep ih rfl rfl rfl rfl rfl rfl (by simp [inHand, hph]) (fun _ => hn) (by simp [hph]) ih.box
        · exact inv_keep ih rfl rfl rfl rfl rfl rfl (by simp [inHand, hph]) (by simp) (by simp [hph]) ih.box
      | testPause =>
        have hn := ih.wants (Or.inl hph)
        dsimp only
        split
        · exact inv_keep ih rfl rfl rfl rfl rfl rfl (by simp [inHand, hph]) (fun _ => hn) (by simp [hph]) ih.box
        · exact inv_keep ih rfl rfl rfl rfl rfl rfl (by simp [inHand, hph]) (fun _ => hn) (by simp [hph]) ih.box
      | checked =>
        have hn := ih.wants (Or.inr hph)
        obtain ⟨pre, rest, r1, r2, r3⟩ := ih.need hn
        have hS : S ≠ [] := by rw [r1]; simp [r2]
        obtain ⟨d, hd⟩ : ∃ d, S.getLast? = some d := by
          cases hg : S.getLast? with
          | none => exact absurd (List.getLast?_eq_none_iff.1 hg) hS
          | some d => exact ⟨d, rfl⟩
        have hcur : w.cur = some d := ih.cur.trans hd
        simp only [hcur]
        simp only [hph, inHand, List.append_nil] at r3
        refine ⟨hcur ▸ ih.cur, nofun, fun _ => ⟨?_, fun _ => ?_⟩, by simp, ih.last, ih.ids, ih.box⟩
        · simp only [inHand]
          rw [r1]
          refine List.Sublist.append r3 ?_
          have : rest.getLast? = some d := by
            rw [r1, List.getLast?_append_of_ne_nil _ r2] at hd
            exact hd
          exact List.singleton_sublist.2 (List.mem_of_getLast? this)
        · simp only [inHand, List.getLast?_append, List.getLast?_singleton, Option.some_or]
          exact hd.symm
      | drawing d =>
        dsimp only
        split
        · have e4 : out ++ (w.posted ++ [(w.next, d)]).map Prod.snd ++ inHand (Phase.top : Phase D) =
              out ++ w.posted.map Prod.snd ++ inHand w.phase := by simp [inHand, hph]
          refine ⟨ih.cur, ?_, ?_, by simp, ih.last, ?_, ih.box⟩
          · intro hn
            dsimp only
            rw [e4]; exact ih.need hn
          · intro hn
            dsimp only
            rw [e4]
            exact ⟨(ih.idle hn).1, fun _ => (ih.idle hn).2 (by simp [hph])⟩
          · have := ih.ids
            simp only [List.map_append, List.map_cons, List.map_nil, List.range_succ, ← this, List.append_assoc]
        · have hsub : ∀ T : List D, (out ++ w.posted.map Prod.snd ++ inHand w.phase).Sublist T →
              (out ++ w.posted.map Prod.snd ++ inHand (Phase.crashed : Phase D)).Sublist T := by
            intro T hT
            refine List.Sublist.trans ?_ hT
            simp only [inHand, List.append_nil]
            exact List.sublist_append_left _ _
          refine ⟨ih.cur, ?_, ?_, by simp, ih.last, ih.ids, ih.box⟩
          · intro hn
            obtain ⟨pre, rest, r1, r2, r3⟩ := ih.need hn
            exact ⟨pre, rest, r1, r2, hsub _ r3⟩
          · intro hn
            exact ⟨hsub _ (ih.idle hn).1, fun hc => absurd rfl hc⟩
      | ended => exact ih
      | crashed => exact ih

/-- Missing compared to `C83_statement`: the pause (see `C83_pause_partial`) and unreadable texts (see `C83_crash_fails`).  For any
interleaving: a widget that has nothing left to do shows the last text, and one that still has something to do will have the chance: the
last text is in `currentGraph` and `needRedraw` is set, or its drawing is under way. -/
theorem C83_latest_partial (readable : D → Bool) (l : List (Act D)) (hc : (exec readable l).phase ≠ .crashed) :
    ((exec readable l).Idle → (exec readable l).shown.map Prod.snd = (sent l).getLast?) ∧
    ((exec readable l).need = true → (exec readable l).cur = (sent l).getLast?) ∧
    ((exec readable l).need = false → (exec readable l).posted = [] → ∀ d, (exec readable l).phase = .drawing d →
      (sent l).getLast? = some d) ∧
    ((exec readable l).need = false → (∀ d, (exec readable l).phase ≠ .drawing d) → ∀ p r, (exec readable l).posted = p ++ [r] →
      (sent l).getLast? = some r.2) := by
  have h := inv_run readable l
  have hh : (∀ d, (exec readable l).phase ≠ .drawing d) → inHand (exec readable l).phase = [] := by
    intro hd
    cases hp : (exec readable l).phase <;> simp_all [inHand]
  refine ⟨?_, fun _ => h.cur, ?_, ?_⟩
  · rintro ⟨h1, h2, h3⟩
    have := (h.idle h1).2 hc
    rw [h2, hh h3] at this
    rw [← h.last, ← this]
    simp
  · intro h1 h2 d hd
    have := (h.idle h1).2 hc
    rw [hd] at this
    rw [← this]
    simp [inHand]
  · intro h1 h2 p r hp
    have := (h.idle h1).2 hc
    rw [hh h2, hp] at this
    rw [← this]
    simp

/-- The drawings come on the screen in the order of the texts and each text is drawn at most once. -/
theorem C83_order (readable : D → Bool) (l : List (Act D)) : (watch readable l).1 = exec readable l ∧
    (watch readable l).2.Sublist (sent l) ∧ (watch readable l).2.getLast? = (exec readable l).shown.map Prod.snd := by
  have h := inv_run readable l
  refine ⟨watch_fst readable l, ?_, h.last⟩
  cases hn : (exec readable l).need with
  | true =>
    obtain ⟨pre, rest, r1, -, r3⟩ := h.need hn
    rw [r1]
    rw [List.append_assoc] at r3
    exact ((List.sublist_append_left _ _).trans r3).trans (List.sublist_append_left _ _)
  | false =>
    have := (h.idle hn).1
    rw [List.append_assoc] at this
    exact (List.sublist_append_left _ _).trans this

example : (watch (fun _ => true) ([.toggle, .display 1, .layout, .layout, .layout, .layout, .layout, .layout, .deliver, .display 2] : List (Act Nat))).2 = [1] := by decide

private theorem exec_append (readable : D → Bool) (l l' : List (Act D)) :
    exec readable (l ++ l') = l'.foldl (Act.app readable) (exec readable l) := by simp [exec]

/-- If graphviz can read all texts, the layout thread does not crash. -/
theorem C83_no_crash_partial (readable : D → Bool) (l : List (Act D)) (hr : ∀ d ∈ sent l, readable d = true) :
    (exec readable l).phase ≠ .crashed := by
  induction l using List.reverseRecOn with
  | nil => simp [exec]
  | append_singleton l a ih =>
    have hs : sent (l ++ [a]) = sent l ++ sent [a] := List.filterMap_append
    rw [hs] at hr
    have ih' := ih (fun d hd => hr d (by simp [hd]))
    have h := inv_run readable l
    rw [exec_append]
    show (Act.app readable (exec readable l) a).phase ≠ .crashed
    cases a with
    | display d => exact ih'
    | toggle => exact ih'
    | close => exact ih'
    | deliver => simp only [Act.app, deliver]; split <;> exact ih'
    | layout =>
      simp only [Act.app, layout]
      cases hph : (exec readable l).phase with
      | top => dsimp only; split <;> simp
      | slept => dsimp only; split <;> simp
      | testNeed => dsimp only; split <;> simp
      | testPause => dsimp only; split <;> simp
      | checked =>
        obtain ⟨pre, rest, r1, r2, -⟩ := h.need (h.wants (Or.inr hph))
        have hc := h.cur
        rw [r1, List.getLast?_append_of_ne_nil _ r2, List.getLast?_eq_getLast_of_ne_nil r2] at hc
        simp [hc]
      | drawing d =>
        have hd : d ∈ sent l := by
          cases hn : (exec readable l).need with
          | true =>
            obtain ⟨pre, rest, r1, -, r3⟩ := h.need hn
            rw [r1]
            exact List.mem_append_left _ (r3.subset (by simp [hph, inHand]))
          | false => exact (h.idle hn).1.subset (by simp [hph, inHand])
        simp [hr d (by simp [hd])]
      | ended => simp [hph]
      | crashed => exact absurd hph ih'

example : (exec (· < 5) ([.toggle, .display 1, .layout, .layout, .layout, .layout, .layout, .layout] : List (Act Nat))).phase ≠ .crashed := by decide

/-- The last text does come on the screen: if graphviz can read all texts and the widget is neither paused nor closed, seven steps of
the layout thread and then the queued calls are enough. -/
theorem C83_shown_partial (readable : D → Bool) (l : List (Act D)) (hr : ∀ d ∈ sent l, readable d = true)
    (hrun : Act.close ∉ l) (hp : (exec readable l).pause = false) (n : Nat) (hn : 7 ≤ n) :
    ∃ m, (exec readable (l ++ List.replicate n .layout ++ List.replicate m .deliver)).Idle ∧
      (exec readable (l ++ List.replicate n .layout ++ List.replicate m .deliver)).shown.map Prod.snd = (sent l).getLast? := by
  have hst : (exec readable l).run = true ∧ (exec readable l).phase ≠ .ended := by
    clear hp hr
    induction l using List.reverseRecOn with
    | nil => simp [exec]
    | append_singleton l a ih =>
      simp only [List.mem_append, List.mem_singleton, not_or] at hrun
      obtain ⟨i1, i2⟩ := ih hrun.1
      rw [exec_append]
      show (Act.app readable (exec readable l) a).run = true ∧ (Act.app readable (exec readable l) a).phase ≠ .ended
      cases a with
      | display d => exact ⟨i1, i2⟩
      | toggle => exact ⟨i1, i2⟩
      | close => exact absurd rfl hrun.2
      | deliver => simp only [Act.app, deliver]; split <;> exact ⟨i1, i2⟩
      | layout =>
        simp only [Act.app, layout]
        cases hph : (exec readable l).phase with
        | ended => exact absurd hph i2
        | crashed => exact ⟨i1, by simp [hph]⟩
        | _ => dsimp only; (try split) <;> simp_all
  -- steps until the last text is posted
  let left : W D → Nat := fun w => match w.phase with
    | .top => if w.need then 6 else 0
    | .slept => if w.need then 5 else 0
    | .testNeed => if w.need then 4 else 0
    | .testPause => 3
    | .checked => 2
    | .drawing _ => if w.need then 7 else 1
    | .ended => 0
    | .crashed => 0
  have hsent : ∀ k, sent (l ++ List.replicate k .layout) = sent l := by
    intro k
    have : sent (List.replicate k (Act.layout : Act D)) = [] := by
      rw [sent, List.filterMap_eq_nil_iff]
      intro x hx
      rw [List.eq_of_mem_replicate hx]
    rw [sent, List.filterMap_append]
    simp only [sent] at this ⊢
    rw [this, List.append_nil]
  have key : ∀ k, left (exec readable (l ++ List.replicate k .layout)) ≤ 7 - k ∧
      (exec readable (l ++ List.replicate k .layout)).run = true ∧ (exec readable (l ++ List.replicate k .layout)).pause = false ∧
      (exec readable (l ++ List.replicate k .layout)).phase ≠ .ended := by
    intro k
    induction k with
    | zero =>
      simp only [List.replicate_zero, List.append_nil]
      refine ⟨?_, hst.1, hp, hst.2⟩
      simp only [left]
      split <;> (try split) <;> omega
    | succ k ih =>
      obtain ⟨i1, i2, i3, i4⟩ := ih
      have hcr := C83_no_crash_partial readable (l ++ List.replicate k .layout) (by rw [hsent]; exact hr)
      have h := inv_run readable (l ++ List.replicate k .layout)
      rw [List.replicate_succ', ← List.append_assoc, exec_append]
      have hread : ∀ d, (exec readable (l ++ List.replicate k .layout)).phase = .drawing d → readable d = true := by
        intro d hd
        by_contra hc
        have := C83_no_crash_partial readable (l ++ List.replicate (k + 1) .layout) (by rw [hsent]; exact hr)
        rw [List.replicate_succ', ← List.append_assoc, exec_append] at this
        apply this
        show (Act.app readable (exec readable (l ++ List.replicate k .layout)) .layout).phase = .crashed
        simp [Act.app, layout, hd, hc]
      have hcur : (exec readable (l ++ List.replicate k .layout)).phase = .checked →
          ∃ d, (exec readable (l ++ List.replicate k .layout)).cur = some d := by
        intro hph
        obtain ⟨pre, rest, r1, r2, -⟩ := h.need (h.wants (Or.inr hph))
        have hc := h.cur
        rw [r1, List.getLast?_append_of_ne_nil _ r2, List.getLast?_eq_getLast_of_ne_nil r2] at hc
        exact ⟨_, hc⟩
      have hwant := h.wants
      generalize exec readable (l ++ List.replicate k .layout) = w at *
      show left (Act.app readable w .layout) ≤ 7 - (k + 1) ∧ (Act.app readable w .layout).run = true ∧
        (Act.app readable w .layout).pause = false ∧ (Act.app readable w .layout).phase ≠ .ended
      simp only [Act.app, layout]
      cases hph : w.phase with
      | ended => exact absurd hph i4
      | crashed => exact absurd hph hcr
      | top => cases hnn : w.need <;> simp_all [left] <;> omega
      | slept => cases hnn : w.need <;> simp_all [left] <;> omega
      | testNeed => cases hnn : w.need <;> simp_all [left] <;> omega
      | testPause => simp_all [left]; omega
      | checked =>
        obtain ⟨d, hd⟩ := hcur hph
        simp_all [left]; omega
      | drawing d =>
        have := hread d hph
        cases hnn : w.need <;> simp_all [left] <;> omega
  obtain ⟨k1, k2, k3, k4⟩ := key n
  have hcr := C83_no_crash_partial readable (l ++ List.replicate n .layout) (by rw [hsent]; exact hr)
  have h := inv_run readable (l ++ List.replicate n .layout)
  have h0 : left (exec readable (l ++ List.replicate n .layout)) = 0 := by omega
  have hnd : (exec readable (l ++ List.replicate n .layout)).need = false ∧
      ∀ d, (exec readable (l ++ List.replicate n .layout)).phase ≠ .drawing d := by
    generalize exec readable (l ++ List.replicate n .layout) = w at *
    cases hph : w.phase <;> cases hnn : w.need <;> simp_all [left]
  -- deliver what is queued
  have hdel : ∀ (m : Nat) (w : W D), w.posted.length = m → ((List.replicate m Act.deliver).foldl (Act.app readable) w).posted = [] ∧
      ((List.replicate m Act.deliver).foldl (Act.app readable) w).need = w.need ∧
      ((List.replicate m Act.deliver).foldl (Act.app readable) w).phase = w.phase := by
    intro m
    induction m with
    | zero => intro w hw; exact ⟨List.length_eq_zero_iff.1 hw, rfl, rfl⟩
    | succ m ih =>
      intro w hw
      rw [List.replicate_succ, List.foldl_cons]
      match hpo : w.posted with
      | [] => rw [hpo] at hw; simp at hw
      | r :: q =>
        obtain ⟨j1, j2, j3⟩ := ih (Act.app readable w .deliver) (by simp only [Act.app, deliver, hpo]; rw [hpo] at hw; simpa using hw)
        refine ⟨j1, j2.trans ?_, j3.trans ?_⟩ <;> simp [Act.app, deliver, hpo]
  refine ⟨(exec readable (l ++ List.replicate n .layout)).posted.length, ?_⟩
  obtain ⟨d1, d2, d3⟩ := hdel _ (exec readable (l ++ List.replicate n .layout)) rfl
  rw [← exec_append] at d1 d2 d3
  have hidle : (exec readable (l ++ List.replicate n .layout ++
      List.replicate (exec readable (l ++ List.replicate n .layout)).posted.length .deliver)).Idle :=
    ⟨d2.trans hnd.1, d1, fun d => by rw [d3]; exact hnd.2 d⟩
  refine ⟨hidle, ?_⟩
  have hlast := (C83_latest_partial readable _ (by rw [d3]; exact hcr)).1 hidle
  rw [hlast]
  have : sent (List.replicate (exec readable (l ++ List.replicate n .layout)).posted.length (Act.deliver : Act D)) = [] := by
    rw [sent, List.filterMap_eq_nil_iff]
    intro x hx
    rw [List.eq_of_mem_replicate hx]
  rw [show ∀ a b : List (Act D), sent (a ++ b) = sent a ++ sent b from fun a b => List.filterMap_append, this, List.append_nil, hsent]

/-- two texts before the thread looks: only the last one is drawn -/
example : (exec (fun _ => true) ([.toggle, .display 1, .display 2] ++ List.replicate 7 .layout ++ [.deliver] : List (Act Nat))).shown = some (0, 2) := by decide

/-- No renderer is deleted twice, and neither the one on the screen nor a queued one is deleted.  All others are deleted. -/
theorem C83_renderers (readable : D → Bool) (l : List (Act D)) :
    (exec readable l).freed.Nodup ∧
    (∀ r, (exec readable l).shown = some r → r.1 ∉ (exec readable l).freed) ∧
    (∀ r ∈ (exec readable l).posted, r.1 ∉ (exec readable l).freed) ∧
    (∀ i < (exec readable l).next, i ∈ (exec readable l).freed ∨ (∃ r, (exec readable l).shown = some r ∧ r.1 = i) ∨
      ∃ r ∈ (exec readable l).posted, r.1 = i) := by
  have h := (inv_run readable l).ids
  have hn : ((exec readable l).freed ++ ((exec readable l).shown.map Prod.fst).toList ++ (exec readable l).posted.map Prod.fst).Nodup :=
    h ▸ List.nodup_range
  obtain ⟨h1, -, h3⟩ := List.nodup_append.1 hn
  obtain ⟨h4, -, h6⟩ := List.nodup_append.1 h1
  refine ⟨h4, ?_, ?_, ?_⟩
  · intro r hr hm
    exact h6 _ hm r.1 (by simp [hr]) rfl
  · intro r hr hm
    exact h3 r.1 (by simp [hm]) r.1 (List.mem_map_of_mem hr) rfl
  · intro i hi
    have : i ∈ List.range (exec readable l).next := by simpa using hi
    rw [← h] at this
    simp only [List.mem_append, Option.mem_toList, Option.map_eq_some_iff, List.mem_map] at this
    rcases this with (h' | ⟨r, hr, rfl⟩) | ⟨r, hr, rfl⟩
    · exact Or.inl h'
    · exact Or.inr (Or.inl ⟨r, hr, rfl⟩)
    · exact Or.inr (Or.inr ⟨r, hr, rfl⟩)

/-- The check box and the flag agree, although the slot turns the flag round instead of taking the state of the box. -/
theorem C83_box (readable : D → Bool) (l : List (Act D)) : (exec readable l).box = (exec readable l).pause := (inv_run readable l).box

/-- drawings that the layout thread makes before its next test -/
private def soon : Phase D → Nat
  | .checked => 1
  | .drawing _ => 1
  | _ => 0

/-- Missing compared to `C83_statement`: a thread that has already passed its tests.  Then at most one more drawing comes out, else none. -/
theorem C83_pause_partial (readable : D → Bool) (l l' : List (Act D)) (hp : (exec readable l).pause = true) (ht : Act.toggle ∉ l') :
    (exec readable (l ++ l')).next ≤ (exec readable l).next + 1 ∧
    ((exec readable l).phase ≠ .checked → (∀ d, (exec readable l).phase ≠ .drawing d) →
      (exec readable (l ++ l')).next = (exec readable l).next) := by
  rw [exec_append]
  generalize exec readable l = w at *
  -- the number of drawings that can still come out
  have key : ∀ (l' : List (Act D)), Act.toggle ∉ l' → ∀ w : W D, w.pause = true →
      (l'.foldl (Act.app readable) w).next ≤ w.next + soon w.phase := by
    intro l'
    induction l' with
    | nil => intro _ w _; simp
    | cons a l' ih =>
      intro ht w hp
      simp only [List.mem_cons, not_or] at ht
      rw [List.foldl_cons]
      cases a with
      | display d => exact ih ht.2 _ hp
      | toggle => exact absurd rfl ht.1
      | close => exact ih ht.2 _ hp
      | deliver =>
        have h1 := ih ht.2 (Act.app readable w .deliver) (by simp only [Act.app, deliver]; split <;> exact hp)
        have e : (Act.app readable w .deliver).next = w.next ∧ (Act.app readable w .deliver).phase = w.phase := by
          simp only [Act.app, deliver]; split <;> exact ⟨rfl, rfl⟩
        rw [e.1, e.2] at h1
        exact h1
      | layout =>
        have h1 := ih ht.2 (Act.app readable w .layout) (by
          simp only [Act.app, layout]
          split <;> (try split) <;> exact hp)
        refine h1.trans ?_
        simp only [Act.app, layout]
        cases hph : w.phase with
        | top => dsimp only; split <;> simp [soon]
        | slept => dsimp only; split <;> simp [soon]
        | testNeed => dsimp only; split <;> simp [soon]
        | testPause => simp [hp, soon]
        | checked => dsimp only; split <;> simp [soon]
        | drawing d => dsimp only; split <;> simp [soon]
        | ended => simp [hph, soon]
        | crashed => simp [hph, soon]
  have h1 := key l' ht w hp
  have mono : ∀ (l' : List (Act D)) (w : W D), w.next ≤ (l'.foldl (Act.app readable) w).next := by
    intro l'
    induction l' with
    | nil => intro w; exact Nat.le_refl _
    | cons a l' ih =>
      intro w
      refine Nat.le_trans ?_ (ih _)
      cases a with
      | display d => exact Nat.le_refl _
      | toggle => exact Nat.le_refl _
      | close => exact Nat.le_refl _
      | deliver => simp only [Act.app, deliver]; split <;> exact Nat.le_refl _
      | layout =>
        simp only [Act.app, layout]
        split <;> (try split) <;> simp
  have hle : soon w.phase ≤ 1 := by cases w.phase <;> simp [soon]
  refine ⟨by omega, fun h2 h3 => ?_⟩
  have h0 : soon w.phase = 0 := by cases hph : w.phase <;> simp_all [soon]
  exact Nat.le_antisymm (by omega) (mono l' w)

/-- The destructor comes back: once it was called, the layout thread ends within five of its steps, whatever else happens. -/
theorem C83_stops (readable : D → Bool) (l l' : List (Act D)) (hl : Act.close ∈ l)
    (h5 : 5 ≤ (l'.filter (fun | .layout => true | _ => false)).length) :
    (exec readable (l ++ l')).phase = .ended ∨ (exec readable (l ++ l')).phase = .crashed := by
  have hrun : (exec readable l).run = false := by
    obtain ⟨l1, l2, rfl⟩ := List.append_of_mem hl
    rw [show l1 ++ Act.close :: l2 = (l1 ++ [Act.close]) ++ l2 by simp, exec_append]
    have h0 : (exec readable (l1 ++ [Act.close])).run = false := by rw [exec_append]; rfl
    generalize exec readable (l1 ++ [Act.close]) = w at h0
    clear hl
    induction l2 generalizing w with
    | nil => exact h0
    | cons a l2 ih =>
      refine ih _ ?_
      cases a with
      | display d => exact h0
      | toggle => exact h0
      | close => rfl
      | deliver => simp only [Act.app, deliver]; split <;> exact h0
      | layout =>
        simp only [Act.app, layout]
        split <;> (try split) <;> exact h0
  rw [exec_append]
  generalize exec readable l = w at hrun
  -- steps that are left
  let left : Phase D → Nat := fun
    | .top => 1 | .slept => 1 | .testNeed => 5 | .testPause => 4 | .checked => 3 | .drawing _ => 2 | .ended => 0 | .crashed => 0
  have key : ∀ (l' : List (Act D)) (w : W D), w.run = false →
      left (l'.foldl (Act.app readable) w).phase ≤ left w.phase - (l'.filter (fun | .layout => true | _ => false)).length := by
    intro l'
    induction l' with
    | nil => intro w _; simp
    | cons a l' ih =>
      intro w hw
      rw [List.foldl_cons]
      cases a with
      | display d => exact ih _ hw
      | toggle => exact ih _ hw
      | close => exact ih _ rfl
      | deliver =>
        have e : (Act.app readable w .deliver).run = w.run ∧ (Act.app readable w .deliver).phase = w.phase := by
          simp only [Act.app, deliver]; split <;> exact ⟨rfl, rfl⟩
        have := ih (Act.app readable w .deliver) (e.1.trans hw)
        rw [e.2] at this
        exact this
      | layout =>
        have e : (Act.app readable w .layout).run = w.run := by
          simp only [Act.app, layout]
          split <;> (try split) <;> rfl
        have h1 := ih (Act.app readable w .layout) (e.trans hw)
        have h2 : left (Act.app readable w .layout).phase ≤ left w.phase - 1 := by
          simp only [Act.app, layout, hw]
          cases hph : w.phase with
          | top => simp [left]
          | slept => simp [left]
          | testNeed => dsimp only; split <;> simp [left]
          | testPause => dsimp only; split <;> simp [left]
          | checked => dsimp only; split <;> simp [left]
          | drawing d => dsimp only; split <;> simp [left]
          | ended => simp [left, hph]
          | crashed => simp [left, hph]
        simp only [List.filter_cons, if_true, List.length_cons]
        omega
  have h1 := key l' w hrun
  have h2 : left w.phase ≤ 5 := by cases w.phase <;> simp [left]
  have h3 : left (l'.foldl (Act.app readable) w).phase = 0 := by omega
  cases hph : (l'.foldl (Act.app readable) w).phase <;> simp_all [left]

/-- A text that is given after the user paused the widget is drawn all the same: the thread had passed its test before. -/
theorem C83_pause_fails : ∃ l l' : List (Act Nat), (exec (fun _ => true) l).pause = true ∧ Act.toggle ∉ l' ∧ sent l = [1] ∧ sent l' = [2] ∧
    (exec (fun _ => true) (l ++ l')).shown = some (0, 2) :=
  ⟨[.toggle, .display 1, .layout, .layout, .layout, .layout, .toggle], [.display 2, .layout, .layout, .deliver], rfl, by simp, rfl, rfl, rfl⟩

/-- A text that graphviz cannot read crashes the thread (NULL is used). -/
theorem C83_crash_fails : (exec (fun _ => false) [.toggle, .display 1, .layout, .layout, .layout, .layout, .layout, .layout]).phase = .crashed := rfl

/-- The full statement is false. -/
theorem C83_statement_fails : ¬ C83_statement Nat := by
  intro H
  have h := (H (fun _ => true) [.toggle, .display 1, .layout, .layout, .layout, .layout, .toggle]).2.1
    [.display 2, .layout, .layout, .deliver] rfl (by simp)
  cases h

/-- three texts, one of them never drawn -/
example : let l : List (Act Nat) := [.toggle, .display 1, .layout, .layout, .layout, .layout, .layout, .display 2, .layout, .display 3, .deliver,
      .layout, .layout, .layout, .layout, .layout, .layout, .deliver]
    (exec (fun _ => true) l).shown = some (1, 3) ∧ (exec (fun _ => true) l).freed = [0] ∧ (watch (fun _ => true) l).2 = [1, 3] ∧
    (exec (fun _ => true) l).need = false ∧ (exec (fun _ => true) l).posted = [] := by decide

/-- the destructor while a drawing is under way -/
example : (exec (fun _ => true) [.toggle, .display 1, .layout, .layout, .layout, .layout, .layout, .close, .layout, .layout]).phase = .ended := rfl

/-- six steps of the layout thread -/
private def six : List (Act Nat) := [.layout, .layout, .layout, .layout, .layout, .layout]

/-- paused at first: nothing is drawn, but the text is not lost; two finished drawings arrive in order; the destructor is noticed after
the sleep -/
example : (exec (fun _ => true) (.display 1 :: six ++ [.deliver])).shown = none ∧
    (exec (fun _ => true) (.display 1 :: six ++ .toggle :: six ++ six ++ [.deliver])).shown = some (0, 1) ∧
    (exec (fun _ => true) (.toggle :: .display 1 :: six ++ .display 2 :: six ++ [.deliver])).shown = some (0, 1) ∧
    (exec (fun _ => true) (.toggle :: .display 1 :: six ++ .display 2 :: six ++ [.deliver])).posted = [(1, 2)] ∧
    (exec (fun _ => true) [.layout, (.close : Act Nat), .layout]).phase = .ended := by
  refine ⟨?_, ?_, ?_, ?_, ?_⟩ <;> decide

end Verif
