import Verif.Lemmas.Dispatcher
/-!
# C37: a dispatcher waiting for frames stays silent until all of them were added

Full statement: after `waitForFrame(f1..fn)` no event is forwarded until each of them was announced, and every event after
that is forwarded.

It fails if a frame is named twice: the dispatcher then waits for two announcements.  The exact condition is proved for all
lists; the full statement follows for lists without repetitions.
-/

namespace Verif
open Disp

/-- the full statement -/
def C37_statement : Prop :=
  ∀ (fs : List FrameId) (pre post : List Event) (d : Disp), fs ≠ [] → d.waitingFor = [] →
    ((∃ f ∈ fs, Event.frameAdded f ∉ pre) → ∃ d', Disp.run (fs.map .waitForFrame ++ pre.map .notify) d = some d' ∧ d'.calls = d.calls) ∧
    ((∀ f ∈ fs, Event.frameAdded f ∈ pre) → ∃ d1 d2, Disp.run (fs.map .waitForFrame ++ pre.map .notify) d = some d1 ∧
      Disp.run (post.map .notify) d1 = some d2 ∧
      d2.calls = d1.calls ++ post.flatMap (fun e => (d.callbacks e.kind).map (fun c => (c, e))))

/-- Exact condition, first half: as long as some name was announced less often than it was named, nothing is forwarded. -/
theorem C37_silent (fs : List FrameId) (es : List Event) (d : Disp) (hd : d.waitingFor = []) (hc : ¬ Complete fs es) :
    ∃ d', Disp.run (fs.map .waitForFrame ++ es.map .notify) d = some d' ∧ d'.calls = d.calls ∧ d'.enabled = false := by
  have hfs : fs ≠ [] := by rintro rfl; exact hc (fun f => by simp)
  rw [dispRun_append, dispRun_wait fs hfs]
  obtain ⟨ws, h1, _, _⟩ := wait_silent fs es hc { d with enabled := false, waiting := some true, waitingFor := d.waitingFor ++ fs } rfl rfl
    (by simp [hd])
  exact ⟨_, h1, rfl, rfl⟩

/-- "b" was not announced; the events about "a" are not forwarded -/
example : (Disp.run (["a", "b"].map .waitForFrame ++ [Event.frameAdded "a", .edgeRemoved "a" "b", .frameRemoved "b"].map .notify)
    (Disp.withPublisher.addCallback .frameAdded 1)).map (fun d => (d.calls, d.enabled)) = some ([], false) := rfl

/-- Exact condition, second half: the event that completes the list is swallowed, every later event is forwarded. -/
theorem C37_forwards (fs : List FrameId) (pre : List Event) (x : Event) (post : List Event) (d : Disp) (hd : d.waitingFor = [])
    (hc : ¬ Complete fs pre) (hx : Complete fs (pre ++ [x])) :
    ∃ d', Disp.run (fs.map .waitForFrame ++ (pre ++ x :: post).map .notify) d = some d' ∧
      d'.calls = d.calls ++ post.flatMap (fun e => (d.callbacks e.kind).map (fun c => (c, e))) ∧ d'.enabled = true := by
  have hfs : fs ≠ [] := by rintro rfl; exact hc (fun f => by simp)
  rw [dispRun_append, dispRun_wait fs hfs]
  obtain ⟨ws, h1, h2, h3⟩ := wait_silent fs pre hc { d with enabled := false, waiting := some true, waitingFor := d.waitingFor ++ fs } rfl rfl
    (by simp [hd])
  simp only [Option.bind_some]
  rw [List.map_append, dispRun_append, h1]
  simp only [Option.bind_some, List.map_cons, Disp.run, Disp.exec]
  -- the event is an announcement of the only frame that is left
  have hxf : ∃ f, x = .frameAdded f := by
    by_contra hno
    apply hc
    intro f
    have := hx f
    rw [announcements_snoc, if_neg (by rintro rfl; exact hno ⟨f, rfl⟩)] at this
    exact this
  obtain ⟨f, rfl⟩ := hxf
  have hnil : ws.erase f = [] := by
    rw [List.eq_nil_iff_forall_not_mem]
    intro g hg
    have h4 := hx g
    rw [announcements_snoc] at h4
    have h5 : 0 < (ws.erase f).count g := List.count_pos_iff.2 hg
    rw [List.count_erase, h3] at h5
    by_cases hfg : f = g
    · subst hfg; simp at h4 h5; omega
    · simp [hfg] at h4 h5; omega
  simp only [Disp.notify, checkWaitingForFrames, hnil, List.length_nil, if_true, Bool.false_eq_true, if_false]
  rw [dispRun_enabled _ _ rfl]
  exact ⟨_, rfl, rfl, rfl⟩

/-- the event that completes the list is swallowed; two callbacks get the next one -/
example : (Disp.run (["a"].map .waitForFrame ++ [Event.frameAdded "b", .frameAdded "a", .frameAdded "c"].map .notify)
    ((Disp.withPublisher.addCallback .frameAdded 1).addCallback .frameAdded 2)).map (fun d => (d.calls, d.enabled)) =
  some ([(1, .frameAdded "c"), (2, .frameAdded "c")], true) := rfl

/-- The full statement for lists without repetitions. -/
theorem C37_no_repetitions_partial (fs : List FrameId) (hnd : fs.Nodup) (hne : fs ≠ []) (d : Disp) (hd : d.waitingFor = []) (pre post : List Event) :
    ((∃ f ∈ fs, Event.frameAdded f ∉ pre) → ∃ d', Disp.run (fs.map .waitForFrame ++ pre.map .notify) d = some d' ∧ d'.calls = d.calls) ∧
    ((∀ f ∈ fs, Event.frameAdded f ∈ pre) → ∃ d1 d2, Disp.run (fs.map .waitForFrame ++ pre.map .notify) d = some d1 ∧
      Disp.run (post.map .notify) d1 = some d2 ∧
      d2.calls = d1.calls ++ post.flatMap (fun e => (d.callbacks e.kind).map (fun c => (c, e)))) := by
  have hcomp : ∀ es, Complete fs es ↔ ∀ f ∈ fs, Event.frameAdded f ∈ es := by
    intro es
    constructor
    · intro hc f hf
      have := hc f
      rw [List.count_eq_one_of_mem hnd hf] at this
      have h1 : 0 < announcements f es := by omega
      rw [announcements, List.countP_pos_iff] at h1
      obtain ⟨e, he, h2⟩ := h1
      simp at h2; subst h2; exact he
    · intro hall f
      by_cases hf : f ∈ fs
      · rw [List.count_eq_one_of_mem hnd hf]
        have : 0 < announcements f es := by rw [announcements, List.countP_pos_iff]; exact ⟨_, hall f hf, by simp⟩
        omega
      · rw [List.count_eq_zero_of_not_mem hf]; omega
  constructor
  · rintro ⟨f, hf, hn⟩
    obtain ⟨d', h1, h2, _⟩ := C37_silent fs pre d hd (fun hc => hn ((hcomp pre).1 hc f hf))
    exact ⟨d', h1, h2⟩
  · intro hall
    have hc := (hcomp pre).2 hall
    -- the first completing event
    have hsplit : ∀ es, Complete fs es → ∃ p x q, es = p ++ x :: q ∧ ¬ Complete fs p ∧ Complete fs (p ++ [x]) := by
      intro es
      induction es using List.reverseRecOn with
      | nil =>
        intro h0
        obtain ⟨f, hf⟩ := List.exists_mem_of_ne_nil _ hne
        have := (hcomp []).1 h0 f hf
        simp at this
      | append_singleton es e ih =>
        intro h0
        by_cases hce : Complete fs es
        · obtain ⟨p, x, q, rfl, h1, h2⟩ := ih hce
          exact ⟨p, x, q ++ [e], by simp, h1, h2⟩
        · exact ⟨es, e, [], rfl, hce, h0⟩
    obtain ⟨p, x, q, rfl, h1, h2⟩ := hsplit pre hc
    obtain ⟨d1, h3, h4, h5⟩ := C37_forwards fs p x q d hd h1 h2
    obtain ⟨d2, h6, h7, _⟩ := C37_forwards fs p x (q ++ post) d hd h1 h2
    refine ⟨d1, d2, h3, ?_, ?_⟩
    · have : fs.map DCmd.waitForFrame ++ (p ++ x :: (q ++ post)).map DCmd.notify =
          (fs.map DCmd.waitForFrame ++ (p ++ x :: q).map DCmd.notify) ++ post.map DCmd.notify := by simp
      rw [this, dispRun_append, h3] at h6
      exact h6
    · rw [h7, h4, List.flatMap_append]; simp

/-- "a" is announced twice before "b" -/
example : (Disp.run (["a", "b"].map .waitForFrame ++ [Event.frameAdded "a", .frameAdded "a", .frameAdded "b", .frameAdded "a"].map .notify)
    (Disp.withPublisher.addCallback .frameAdded 1)).map Disp.calls = some [(1, .frameAdded "a")] := rfl

/-- A frame that is named twice is awaited twice. -/
theorem C37_statement_fails : ¬ C37_statement := by
  intro hs
  obtain ⟨d1, d2, h1, h2, h3⟩ := (hs ["a", "a"] [.frameAdded "a"] [.frameRemoved "a"]
    (Disp.withPublisher.addCallback .frameRemoved 1) (by decide) rfl).2 (by decide)
  have hw : ∃ e1 e2, Disp.run (["a", "a"].map .waitForFrame ++ [Event.frameAdded "a"].map .notify)
      (Disp.withPublisher.addCallback .frameRemoved 1) = some e1 ∧ Disp.run ([Event.frameRemoved "a"].map .notify) e1 = some e2 ∧
      e1.calls = [] ∧ e2.calls = [] := ⟨_, _, rfl, rfl, rfl, rfl⟩
  obtain ⟨e1, e2, k1, k2, k3, k4⟩ := hw
  rw [k1] at h1
  obtain rfl := Option.some.inj h1
  rw [k2] at h2
  obtain rfl := Option.some.inj h2
  rw [k3, k4] at h3
  simp [Disp.addCallback, Disp.withPublisher, Event.kind] at h3

/-- A frame that is removed before the last one is announced still counts: the dispatcher starts although "a" does not exist. -/
theorem C37_removed_frame_counts : ∃ d, Disp.run (["a", "b"].map .waitForFrame ++
      [Event.frameAdded "a", .frameRemoved "a", .frameAdded "b"].map .notify) Disp.withPublisher = some d ∧ d.enabled = true :=
  ⟨_, rfl, rfl⟩

/-- waiting for two frames: only the last event is forwarded -/
example : (Disp.run (["a", "b"].map .waitForFrame ++ [Event.frameAdded "b", .frameAdded "c", .frameAdded "a", .frameAdded "d"].map .notify)
    (Disp.withPublisher.addCallback .frameAdded 1)).map Disp.calls = some [(1, .frameAdded "d")] := rfl

/-- waiting for the same name twice needs the frame to be added twice -/
example : (Disp.run (["a", "a"].map .waitForFrame ++ [Event.frameAdded "a", .frameAdded "b", .frameAdded "a", .frameAdded "d"].map .notify)
    (Disp.withPublisher.addCallback .frameAdded 1)).map Disp.calls = some [(1, .frameAdded "d")] := rfl

end Verif
