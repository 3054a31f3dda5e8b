import Verif.Lemmas.PathLemmas
import Verif.Spec.PathSpec
import Verif.Lemmas.Mirror
import Verif.Lemmas.ForestHistory

set_option linter.unusedSectionVars false
set_option linter.unusedSimpArgs false
/-! Removed connections and the events a path gets. -/

namespace Verif
open GS
variable {F E : Type} [FrameProp F] [EdgeProp E]

theorem Mirror.replay_keep {a b : FrameId} (evs : List Event) : ∀ {m m' : Mirror}, m.replay evs = some m' → (a, b) ∈ m.conns →
    Event.edgeRemoved a b ∉ evs → Event.edgeRemoved b a ∉ evs → (a, b) ∈ m'.conns := by
  induction evs with
  | nil => intro m m' h; simp only [Mirror.replay, Option.some.injEq] at h; subst h; exact fun h _ _ => h
  | cons e evs ih =>
    intro m m' h hm h1 h2
    simp only [Mirror.replay, Option.bind_eq_some_iff] at h
    obtain ⟨m1, g1, g2⟩ := h
    refine ih g2 ?_ (fun hh => h1 (List.mem_cons_of_mem _ hh)) (fun hh => h2 (List.mem_cons_of_mem _ hh))
    cases e with
    | frameAdded f => simp only [Mirror.apply] at g1; split at g1 <;> cases g1; exact hm
    | frameRemoved f => simp only [Mirror.apply] at g1; split at g1 <;> cases g1; exact hm
    | edgeAdded x y i =>
      simp only [Mirror.apply] at g1; split at g1 <;> cases g1
      simp [hm]
    | edgeModified x y i j => simp only [Mirror.apply] at g1; split at g1 <;> cases g1; exact hm
    | edgeRemoved x y =>
      simp only [Mirror.apply] at g1; split at g1 <;> cases g1
      simp only [Finset.mem_erase, hm, and_true]
      constructor
      · rintro hh; cases hh; simp at h2
      · rintro hh; cases hh; simp at h1
    | itemAdded f i => simp only [Mirror.apply, Option.some.injEq] at g1; subst g1; exact hm
    | itemRemoved f i => simp only [Mirror.apply, Option.some.injEq] at g1; subst g1; exact hm

theorem Mirror.replay_gone {a b : FrameId} (evs : List Event) : ∀ {m m' : Mirror}, m.replay evs = some m' →
    (∀ x y i, Event.edgeAdded x y i ∉ evs) → (a, b) ∉ m.conns ∨ Event.edgeRemoved a b ∈ evs → (a, b) ∉ m'.conns := by
  induction evs with
  | nil =>
    intro m m' h
    simp only [Mirror.replay, Option.some.injEq] at h
    subst h
    intro _ hh
    rcases hh with hh | hh
    · exact hh
    · cases hh
  | cons e evs ih =>
    intro m m' h hna hm
    simp only [Mirror.replay, Option.bind_eq_some_iff] at h
    obtain ⟨m1, g1, g2⟩ := h
    refine ih g2 (fun x y i hh => hna x y i (List.mem_cons_of_mem _ hh)) ?_
    by_cases hin : Event.edgeRemoved a b ∈ evs
    · exact Or.inr hin
    · refine Or.inl ?_
      cases e with
      | frameAdded f =>
        have : (a, b) ∉ m.conns := by simpa [hin] using hm
        simp only [Mirror.apply] at g1; split at g1 <;> cases g1; exact this
      | frameRemoved f =>
        have : (a, b) ∉ m.conns := by simpa [hin] using hm
        simp only [Mirror.apply] at g1; split at g1 <;> cases g1; exact this
      | edgeAdded x y i => exact absurd (List.mem_cons_self) (hna x y i)
      | edgeModified x y i j =>
        have : (a, b) ∉ m.conns := by simpa [hin] using hm
        simp only [Mirror.apply] at g1; split at g1 <;> cases g1; exact this
      | edgeRemoved x y =>
        simp only [Mirror.apply] at g1; split at g1 <;> cases g1
        simp only [Finset.mem_erase, not_and]
        intro _ h2 h3
        rcases hm with hm | hm
        · exact hm h3
        · rcases List.mem_cons.1 hm with hm | hm
          · cases hm; exact h2 rfl
          · exact hin hm
      | itemAdded f i =>
        have : (a, b) ∉ m.conns := by simpa [hin] using hm
        simp only [Mirror.apply, Option.some.injEq] at g1; subst g1; exact this
      | itemRemoved f i =>
        have : (a, b) ∉ m.conns := by simpa [hin] using hm
        simp only [Mirror.apply, Option.some.injEq] at g1; subst g1; exact this

theorem newEvents_of {s s' : GS F E} {l : List (Event × G F E)} (h : s'.trace = s.trace ++ l) : newEvents s s' = l.map Prod.fst := by
  simp [newEvents, h]

theorem exists_mirror {cs : List (Cmd F E)} (hns : ∀ c ∈ cs, c.noSelf) {s : GS F E} (h : run cs init = some s) :
    ∃ m, MirrorOf s.g m := by
  obtain ⟨l, h1, -⟩ := run_advances WF.empty h
  obtain ⟨m, -, h4⟩ := MirrorOf.steps (fun g e he => he hns) h1 WF.empty Paired.empty MirrorOf.empty
  exact ⟨m, h4⟩

theorem newEvents_trans {s s1 s2 : GS F E} {l l' : List (Event × G F E)} (h : s1.trace = s.trace ++ l) (h' : s2.trace = s1.trace ++ l') :
    newEvents s s2 = newEvents s s1 ++ newEvents s1 s2 := by
  rw [newEvents_of h, newEvents_of h', newEvents_of (l := l ++ l') (by rw [h', h, List.append_assoc])]
  simp

theorem GSteps.mem_label {P : G F E → Event → Prop} {g g' : G F E} {l : List (Event × G F E)} (hs : GSteps P g l g') :
    ∀ e ∈ l.map Prod.fst, ∃ g, P g e := by
  induction hs with
  | nil => simp
  | cons _ hx _ ih =>
    intro e he
    rcases List.mem_cons.1 he with rfl | he
    · exact ⟨_, hx⟩
    · exact ih e he

/-- a connection that is gone was removed with an event -/
theorem removed_event {s s' : GS F E} {cs : List (Cmd F E)} (hw : WF s.g) (hp : Paired s.g) {m : Mirror} (hm : MirrorOf s.g m)
    (hns : ∀ c ∈ cs, c.noSelf) (h : run cs s = some s') {a b : FrameId} (hc : s.Conn a b) (hn : ¬ s'.Conn a b) :
    Event.edgeRemoved a b ∈ newEvents s s' ∨ Event.edgeRemoved b a ∈ newEvents s s' := by
  obtain ⟨l, h1, h2⟩ := run_advances hw h
  obtain ⟨m', h3, h4⟩ := MirrorOf.steps (fun g e he => he hns) h1 hw hp hm
  rw [newEvents_of h2]
  by_contra hh
  rw [not_or] at hh
  apply hn
  refine (containsEdge_iff s' a b).2 ((h4.conns a b).1 ?_)
  exact Mirror.replay_keep _ h3 ((hm.conns a b).2 ((containsEdge_iff s a b).1 hc)) hh.1 hh.2

/-- after a call that published the removal of a connection, the connection is gone -/
theorem exec_removed {s s' : GS F E} {c : Cmd F E} (hw : WF s.g) (hp : Paired s.g) {m : Mirror} (hm : MirrorOf s.g m)
    (hns : c.noSelf) (h : (exec c s).st? = some s') {a b : FrameId} (he : Event.edgeRemoved a b ∈ newEvents s s') : ¬ s'.Conn a b := by
  obtain ⟨l, h1, h2⟩ := exec_advances hw h
  obtain ⟨m', h3, h4⟩ := MirrorOf.steps (fun g e he => he hns) h1 hw hp hm
  rw [newEvents_of h2] at he
  have hna : ∀ x y i, Event.edgeAdded x y i ∉ l.map Prod.fst := by
    intro x y i hh
    by_cases hadd : c.noAdd
    · obtain ⟨l', k1, k2⟩ := exec_advances_noAdd hw hadd h
      obtain rfl : l' = l := List.append_cancel_left (k2.symm.trans h2)
      obtain ⟨_, hP⟩ := k1.mem_label _ hh
      exact hP _ _ _ rfl
    · cases c with
      | addEdge o t p =>
        obtain ⟨l', k1, k2⟩ := addEdge_advances hw h
        obtain rfl : l' = l := List.append_cancel_left (k2.symm.trans h2)
        obtain ⟨_, hP⟩ := k1.mem_label _ he
        rcases hP with ⟨hP, -⟩ | ⟨hP, -⟩ | ⟨i, hP⟩ <;> cases hP
      | _ => exact hadd trivial
  intro hc
  exact Mirror.replay_gone _ h3 hna (Or.inr he) ((h4.conns a b).2 ((containsEdge_iff s' a b).1 hc))

/-- every published removal shows up as a missing connection after some call -/
theorem run_removed {cs : List (Cmd F E)} : ∀ {s s' : GS F E} {m : Mirror}, WF s.g → Paired s.g → MirrorOf s.g m →
    (∀ c ∈ cs, c.noSelf) → run cs s = some s' → ∀ {a b : FrameId}, Event.edgeRemoved a b ∈ newEvents s s' →
    ∃ cs1 cs2 s1, cs = cs1 ++ cs2 ∧ run cs1 s = some s1 ∧ ¬ s1.Conn a b := by
  induction cs with
  | nil =>
    intro s s' m _ _ _ _ h a b he
    simp only [run, Option.some.injEq] at h
    subst h
    simp [newEvents] at he
  | cons c cs ih =>
    intro s s' m hw hp hm hns h a b he
    obtain ⟨s1, hx⟩ : ∃ s1, (exec c s).st? = some s1 := by
      cases hx : exec c s with
      | ok _ s1 => exact ⟨s1, rfl⟩
      | throw _ s1 => exact ⟨s1, rfl⟩
      | ub r => simp [run, hx] at h
    have h' := h
    rw [run_of_exec hx] at h'
    have hw1 : WF s1.g := by
      obtain ⟨l, k, -⟩ := exec_advances hw hx; exact k.wf hw
    have hns1 : c.noSelf := hns c (by simp)
    obtain ⟨l, k1, k2⟩ := exec_advances hw hx
    obtain ⟨m1, -, k3⟩ := MirrorOf.steps (fun g e he => he hns1) k1 hw hp hm
    have hp1 : Paired s1.g := run_paired (cs := [c]) hw hp (by rw [run_of_exec hx]; rfl) (by simpa using hns1)
    obtain ⟨l2, -, k4⟩ := run_advances hw1 h'
    rw [newEvents_trans k2 k4, List.mem_append] at he
    rcases he with he | he
    · exact ⟨[c], cs, s1, rfl, by rw [run_of_exec hx]; rfl, exec_removed hw hp hm hns1 hx he⟩
    · obtain ⟨cs1, cs2, s2, rfl, r1, r2⟩ := ih hw1 hp1 k3 (fun c hc => hns c (List.mem_cons_of_mem _ hc)) h' he
      exact ⟨c :: cs1, cs2, s2, rfl, by rw [run_of_exec hx]; exact r1, r2⟩

/-- consecutive frames of a list -/
theorem mem_createEdges {l : List FrameId} {x y : FrameId} :
    (x, y) ∈ Path.createEdges l ↔ Consecutive l x y := by
  unfold Path.createEdges Consecutive
  induction l with
  | nil => simp
  | cons a l ih =>
    cases l with
    | nil =>
      simp only [List.tail_cons, List.zip_nil_right, List.not_mem_nil, false_iff]
      rintro ⟨l1, l2, h⟩
      have := congrArg List.length h
      simp at this
      omega
    | cons b l =>
      simp only [List.tail_cons, List.zip_cons_cons, List.mem_cons, Prod.mk.injEq]
      constructor
      · rintro (⟨rfl, rfl⟩ | h)
        · exact ⟨[], l, rfl⟩
        · obtain ⟨l1, l2, h⟩ := ih.1 (by simpa using h)
          exact ⟨a :: l1, l2, by simp [h]⟩
      · rintro ⟨l1, l2, h⟩
        cases l1 with
        | nil => simp at h; exact Or.inl ⟨h.1.symm, h.2.1.symm⟩
        | cons c l1 =>
          simp only [List.cons_append, List.cons.injEq] at h
          exact Or.inr (by simpa using ih.2 ⟨l1, l2, h.2⟩)

theorem getPath_auto {s0 s1 : GS F E} {a b : FrameId} {p : Path} (h : getPath a b true s0 = .ok p s1) :
    p = .subscribed p.frames ∧ ∃ l, getFrames a b s0 = .ok l s1 ∧ p.frames = l := by
  unfold getPath at h
  cases hg : getFrames a b s0 with
  | ok l s' =>
    simp only [hg, if_true, Res.ok.injEq] at h
    obtain ⟨rfl, rfl⟩ := h
    exact ⟨rfl, l, rfl, rfl⟩
  | throw x s' => simp [hg] at h
  | ub r => simp [hg] at h

theorem getPath_nodup {s0 s1 : GS F E} (hw : WF s0.g) {a b : FrameId} {p : Path} (h : getPath a b true s0 = .ok p s1) : p.frames.Nodup := by
  obtain ⟨-, l, hl, hpl⟩ := getPath_auto h
  rw [hpl]
  by_cases hab : a = b
  · subst hab
    cases hv : s0.g.vertexOf a with
    | none => simp [getFrames, hv] at hl
    | some u =>
      obtain ⟨evs, lvl, -, -, hrr⟩ := getFrames_eq hw hv hv
      rcases hrr with ⟨-, k⟩ | ⟨-, k⟩ | ⟨k, -⟩
      · rw [k] at hl; rw [← (Res.ok.inj hl).1]; simp
      · rw [k] at hl; rw [← (Res.ok.inj hl).1]; simp
      · exact absurd rfl k
  · rcases getFrames_api hw hab with ⟨-, l', k1, -, k2, -⟩ | ⟨-, k | ⟨x, k⟩⟩
    · rw [k1] at hl; rw [← (Res.ok.inj hl).1]; exact k2
    · rw [k] at hl; rw [← (Res.ok.inj hl).1]; simp
    · rw [k] at hl; cases hl

theorem not_consecutive_swap {l : List FrameId} (hn : l.Nodup) {x y : FrameId} (h : Consecutive l x y) : ¬ Consecutive l y x := by
  rintro ⟨m1, m2, hm⟩
  obtain ⟨l1, l2, hl⟩ := h
  have a1 : l[l1.length]? = some x := by rw [hl]; simp
  have a2 : l[l1.length + 1]? = some y := by rw [hl]; simp
  have b1 : l[m1.length]? = some y := by rw [hm]; simp
  have b2 : l[m1.length + 1]? = some x := by rw [hm]; simp
  have h1 : l1.length < l.length := (List.getElem?_eq_some_iff.1 a1).1
  have h2 : l1.length + 1 < l.length := (List.getElem?_eq_some_iff.1 a2).1
  have := (List.getElem?_inj h1 hn).1 (a1.trans b2.symm)
  have := (List.getElem?_inj h2 hn).1 (a2.trans b1.symm)
  omega

end Verif
