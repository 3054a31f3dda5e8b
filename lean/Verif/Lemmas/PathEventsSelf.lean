import Verif.Lemmas.PathEvents
import Verif.Lemmas.Loose
set_option linter.unusedSectionVars false
/-! Removed connections and the events a path gets, in graphs with self edges. -/

namespace Verif
open GS
variable {F E : Type} [FrameProp F] [EdgeProp E]

theorem Mirror.takes_keep {a b : FrameId} (evs : List Event) : ∀ {m : Mirror}, (a, b) ∈ m.conns →
    Event.edgeRemoved a b ∉ evs → Event.edgeRemoved b a ∉ evs → (a, b) ∈ (evs.foldl Mirror.take m).conns := by
  induction evs with
  | nil => intro m h _ _; exact h
  | cons e evs ih =>
    intro m hm h1 h2
    refine ih ?_ (fun hh => h1 (List.mem_cons_of_mem _ hh)) (fun hh => h2 (List.mem_cons_of_mem _ hh))
    cases e with
    | edgeAdded x y i => simp [Mirror.take, hm]
    | edgeRemoved x y =>
      simp only [Mirror.take, Finset.mem_erase, ne_eq, Prod.mk.injEq]
      refine ⟨?_, ?_, hm⟩
      · rintro ⟨rfl, rfl⟩; exact h2 (by simp)
      · rintro ⟨rfl, rfl⟩; exact h1 (by simp)
    | _ => exact hm

theorem Mirror.takes_gone {a b : FrameId} (evs : List Event) : ∀ {m : Mirror}, (∀ x y i, Event.edgeAdded x y i ∉ evs) →
    ((a, b) ∉ m.conns ∨ Event.edgeRemoved a b ∈ evs) → (a, b) ∉ (evs.foldl Mirror.take m).conns := by
  induction evs with
  | nil =>
    intro m _ h
    rcases h with h | h
    · exact h
    · cases h
  | cons e evs ih =>
    intro m hna h
    refine ih (fun x y i hh => hna x y i (List.mem_cons_of_mem _ hh)) ?_
    rcases h with h | h
    · refine Or.inl ?_
      cases e with
      | edgeAdded x y i => exact absurd (by simp) (hna x y i)
      | edgeRemoved x y => simp [Mirror.take, h]
      | _ => exact h
    · rcases List.mem_cons.1 h with rfl | h
      · exact Or.inl (by simp [Mirror.take])
      · exact Or.inr h

/-- a connection that is gone was removed with an event -/
theorem removed_event_ns {s s' : GS F E} {cs : List (Cmd F E)} (hw : WF s.g) (hp : Paired s.g.ns) {m : Mirror} (hm : MirrorOf s.g m)
    (h : run cs s = some s') {a b : FrameId} (hc : s.Conn a b) (hn : ¬ s'.Conn a b) :
    Event.edgeRemoved a b ∈ newEvents s s' ∨ Event.edgeRemoved b a ∈ newEvents s s' := by
  obtain ⟨l, h1, h2⟩ := run_advances hw h
  have h4 := MirrorOf.takes h1 hw hp hm
  rw [newEvents_of h2]
  by_contra hh
  rw [not_or] at hh
  apply hn
  refine (containsEdge_iff s' a b).2 ((h4.conns a b).1 ?_)
  exact Mirror.takes_keep _ ((hm.conns a b).2 ((containsEdge_iff s a b).1 hc)) hh.1 hh.2

/-- after a call that published the removal of a connection, the connection is gone -/
theorem exec_removed_ns {s s' : GS F E} {c : Cmd F E} (hw : WF s.g) (hp : Paired s.g.ns) {m : Mirror} (hm : MirrorOf s.g m)
    (h : (exec c s).st? = some s') {a b : FrameId} (he : Event.edgeRemoved a b ∈ newEvents s s') : ¬ s'.Conn a b := by
  obtain ⟨l, h1, h2⟩ := exec_advances hw h
  have h4 := MirrorOf.takes h1 hw hp hm
  rw [newEvents_of h2] at he
  have hna : ∀ x y i, Event.edgeAdded x y i ∉ l.map Prod.fst := by
    intro x y i hh
    by_cases hadd : c.noAdd
    · obtain ⟨l', k1, k2⟩ := exec_advances_noAdd hw hadd h
      obtain rfl : l' = l := List.append_cancel_left (k2.symm.trans h2)
      obtain ⟨_, hP⟩ := k1.mem_label _ hh
      exact hP _ _ _ rfl
    · cases c with
      | addEdge o t p =>
        obtain ⟨l', k1, k2⟩ := addEdge_advances hw h
        obtain rfl : l' = l := List.append_cancel_left (k2.symm.trans h2)
        obtain ⟨_, hP⟩ := k1.mem_label _ he
        rcases hP with ⟨hP, -⟩ | ⟨hP, -⟩ | ⟨i, hP⟩ <;> cases hP
      | _ => exact hadd trivial
  intro hc
  exact Mirror.takes_gone _ hna (Or.inr he) ((h4.conns a b).2 ((containsEdge_iff s' a b).1 hc))

/-- every published removal shows up as a missing connection after some call -/
theorem run_removed_ns {cs : List (Cmd F E)} : ∀ {s s' : GS F E} {m : Mirror}, WF s.g → Paired s.g.ns → MirrorOf s.g m →
    run cs s = some s' → ∀ {a b : FrameId}, Event.edgeRemoved a b ∈ newEvents s s' →
    ∃ cs1 cs2 s1, cs = cs1 ++ cs2 ∧ run cs1 s = some s1 ∧ ¬ s1.Conn a b := by
  induction cs with
  | nil =>
    intro s s' m _ _ _ h a b he
    simp only [run, Option.some.injEq] at h
    subst h
    simp [newEvents] at he
  | cons c cs ih =>
    intro s s' m hw hp hm h a b he
    obtain ⟨s1, hx, h'⟩ := run_cons h
    obtain ⟨l, k1, k2⟩ := exec_advances hw hx
    have hw1 : WF s1.g := k1.wf hw
    have k3 := MirrorOf.takes k1 hw hp hm
    have hp1 : Paired s1.g.ns := k1.paired_ns hw hp
    obtain ⟨l2, -, k4⟩ := run_advances hw1 h'
    rw [newEvents_trans k2 k4, List.mem_append] at he
    rcases he with he | he
    · exact ⟨[c], cs, s1, rfl, by rw [run_of_exec hx]; rfl, exec_removed_ns hw hp hm hx he⟩
    · obtain ⟨cs1, cs2, s2, rfl, r1, r2⟩ := ih hw1 hp1 k3 h' he
      exact ⟨c :: cs1, cs2, s2, rfl, by rw [run_of_exec hx]; exact r1, r2⟩

theorem exists_mirror_ns {cs : List (Cmd F E)} {s : GS F E} (h : run cs init = some s) : ∃ m, MirrorOf s.g m := by
  obtain ⟨l, h1, -⟩ := run_advances WF.empty h
  exact ⟨_, MirrorOf.takes h1 WF.empty Paired.empty MirrorOf.empty⟩

end Verif
