import Verif.Spec.Dispatcher
import Mathlib.Data.List.Nodup
import Mathlib.Data.List.Induction
import Mathlib.Data.List.Count
/-! # Lemmas about dispatchers -/

namespace Verif
open Disp

theorem announcements_snoc (f : FrameId) (es : List Event) (e : Event) :
    announcements f (es ++ [e]) = announcements f es + if e = .frameAdded f then 1 else 0 := by
  simp [announcements, List.countP_append, List.countP_cons]

/-- waiting for all of `fs` -/
theorem dispRun_wait (fs : List FrameId) (hfs : fs ≠ []) (d : Disp) :
    Disp.run (fs.map .waitForFrame) d = some { d with enabled := false, waiting := some true, waitingFor := d.waitingFor ++ fs } := by
  induction fs generalizing d with
  | nil => simp at hfs
  | cons f fs ih =>
    simp only [List.map_cons, Disp.run, Disp.exec]
    cases fs with
    | nil => rfl
    | cons g gs => rw [ih (by simp)]; simp [waitForFrame, Disp.enable]

theorem dispRun_append (cs cs' : List DCmd) (d : Disp) : Disp.run (cs ++ cs') d = (Disp.run cs d).bind (Disp.run cs') := by
  induction cs generalizing d with
  | nil => rfl
  | cons c cs ih => simp only [List.cons_append, Disp.run]; cases d.exec c <;> simp [ih]

/-- enabled: everything is forwarded -/
theorem dispRun_enabled (es : List Event) (d : Disp) (hd : d.enabled = true) :
    Disp.run (es.map .notify) d = some { d with calls := d.calls ++ es.flatMap (fun e => (d.callbacks e.kind).map (fun c => (c, e))) } := by
  induction es generalizing d with
  | nil => simp [Disp.run]
  | cons e es ih =>
    simp only [List.map_cons, Disp.run, Disp.exec, Disp.notify, hd, if_true]
    rw [ih _ (by simpa [forward] using hd)]
    simp [forward, hd]

/-- silent while something is missing; what is left is what was not announced yet -/
theorem wait_silent (fs : List FrameId) (es : List Event) (h : ¬ Complete fs es) (d : Disp) (he : d.enabled = false)
    (hw : d.waiting = some true) (hf : d.waitingFor = fs) :
    ∃ ws, Disp.run (es.map .notify) d = some { d with waitingFor := ws } ∧ ws ≠ [] ∧ ∀ f, ws.count f = fs.count f - announcements f es := by
  induction es using List.reverseRecOn with
  | nil =>
    refine ⟨d.waitingFor, rfl, ?_, fun f => by simp [hf, announcements]⟩
    rintro hn; apply h; intro f; rw [hf] at hn; simp [hn]
  | append_singleton es e ih =>
    have h' : ¬ Complete fs es := by
      intro hc; apply h; intro f; have := hc f; rw [announcements_snoc]; omega
    obtain ⟨ws, h1, h2, h3⟩ := ih h'
    have hrun : Disp.run ((es ++ [e]).map .notify) d =
        match ({ d with waitingFor := ws } : Disp).notify e with | .ok _ d' => some d' | .throw _ d' => some d' | .ub _ => none := by
      rw [List.map_append, dispRun_append, h1]
      simp only [Option.bind_some, List.map_cons, List.map_nil, Disp.run, Disp.exec]
      cases ({ d with waitingFor := ws } : Disp).notify e <;> rfl
    rw [hrun]
    by_cases hfa : ∃ f, e = .frameAdded f
    · obtain ⟨f, rfl⟩ := hfa
      have hcnt : ∀ g, (ws.erase f).count g = fs.count g - announcements g (es ++ [.frameAdded f]) := by
        intro g
        rw [announcements_snoc, List.count_erase, h3]
        by_cases hg : f = g
        · subst hg; simp; omega
        · simp [hg]
      have hne : ws.erase f ≠ [] := by
        intro hnil
        apply h
        intro g
        have := hcnt g
        rw [hnil] at this; simp at this; omega
      have hlen : ¬ (ws.erase f).length = 0 := fun hl => hne (List.length_eq_zero_iff.1 hl)
      refine ⟨ws.erase f, ?_, hne, hcnt⟩
      simp only [Disp.notify, he, hw, checkWaitingForFrames, hlen, if_false, Bool.false_eq_true]
    · refine ⟨ws, ?_, h2, fun g => ?_⟩
      · simp only [Disp.notify, he, hw, Bool.false_eq_true, if_false]
        cases e <;> first | rfl | exact absurd ⟨_, rfl⟩ hfa
      · rw [announcements_snoc, h3, if_neg (by rintro rfl; exact hfa ⟨g, rfl⟩)]; rfl

theorem registered_snoc (k : EventKind) (h : List DCmd) (c : DCmd) :
    registered k (h ++ [c]) = registered k h ++ registered k [c] := by
  induction h with
  | nil => rfl
  | cons x h ih =>
    cases x <;> simp only [List.cons_append, registered, ih]
    split <;> simp

theorem switchedOn_snoc (b : Bool) (h : List DCmd) (c : DCmd) :
    switchedOn b (h ++ [c]) = switchedOn (switchedOn b h) [c] := by
  induction h generalizing b with
  | nil => rfl
  | cons x h ih => cases x <;> simp only [List.cons_append, switchedOn, ih]

/-- the simulation; `past` is the history so far -/
theorem calls_of_history {h past : List DCmd} {d : Disp} (hw : ∀ c ∈ h, c.noWait = true)
    (hwait : d.waiting = some false ∨ (d.waiting = none ∧ d.enabled = true ∧ ∀ c ∈ h, c ≠ .enable false))
    (hcb : ∀ k, d.callbacks k = registered k past) (hen : d.enabled = switchedOn true past) :
    ∃ d', Disp.run h d = some d' ∧ d'.calls = d.calls ++ expectedCalls past h := by
  induction h generalizing past d with
  | nil => exact ⟨d, rfl, by simp [expectedCalls]⟩
  | cons c h ih =>
    have hc := hw c (by simp)
    have hw' : ∀ x ∈ h, x.noWait = true := fun x hx => hw x (by simp [hx])
    cases c with
    | waitForFrame f => simp [DCmd.noWait] at hc
    | checkWaitingForFrames f => simp [DCmd.noWait] at hc
    | addCallback k i =>
      obtain ⟨d', h1, h2⟩ := ih (past := past ++ [.addCallback k i]) (d := d.addCallback k i) hw'
        (hwait.imp id (fun h => ⟨h.1, h.2.1, fun x hx => h.2.2 x (by simp [hx])⟩)) (fun k' => by
          simp only [Disp.addCallback, registered_snoc, hcb, registered]
          by_cases hk : k' = k
          · simp [hk]
          · simp [hk, Ne.symm hk]) (by rw [switchedOn_snoc]; exact hen)
      exact ⟨d', h1, by rw [h2]; rfl⟩
    | enable b =>
      obtain ⟨d', h1, h2⟩ := ih (past := past ++ [.enable b]) (d := d.enable b) hw'
        (by
          rcases hwait with h | h
          · exact .inl h
          · refine .inr ⟨h.1, ?_, fun x hx => h.2.2 x (by simp [hx])⟩
            have := h.2.2 (.enable b) (by simp)
            cases b
            · simp at this
            · rfl) (fun k' => by rw [registered_snoc]; simp [Disp.enable, hcb, registered])
        (by rw [switchedOn_snoc]; rfl)
      exact ⟨d', h1, by rw [h2]; rfl⟩
    | notify e =>
      have hsame : ∃ d1, d.notify e = .ok () d1 ∧ d1.waiting = d.waiting ∧ d1.enabled = d.enabled ∧ d1.callbacks = d.callbacks ∧
          d1.calls = d.calls ++ if switchedOn true past then (registered e.kind past).map (fun c => (c, e)) else [] := by
        by_cases hd : d.enabled = true
        · refine ⟨forward e d, by simp [Disp.notify, hd], rfl, rfl, rfl, ?_⟩
          rw [hen] at hd; simp [forward, hd, hcb]
        · rcases hwait with hw1 | hw1
          · refine ⟨d, by simp [Disp.notify, hd, hw1], rfl, rfl, rfl, ?_⟩
            rw [hen] at hd; simp [hd]
          · exact absurd hw1.2.1 hd
      obtain ⟨d1, h1, h2, h3, h4, h5⟩ := hsame
      obtain ⟨d', h6, h7⟩ := ih (past := past ++ [.notify e]) (d := d1) hw'
        (by rw [h2, h3]; exact hwait.imp id (fun h => ⟨h.1, h.2.1, fun x hx => h.2.2 x (by simp [hx])⟩))
        (fun k' => by rw [registered_snoc, h4]; simp [hcb, registered]) (by rw [switchedOn_snoc, h3]; exact hen)
      refine ⟨d', by simp [Disp.run, Disp.exec, h1, h6], ?_⟩
      rw [h7, h5, expectedCalls]; simp

end Verif
