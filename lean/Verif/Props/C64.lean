import Verif.Lemmas.Plugins
/-! # C64: loadAllEnvireItemLibraries reports success correctly -/

namespace Verif
open Plug

/-- The full statement: the result is true iff the library of every item class is loaded in the end. -/
def C64_statement : Prop :=
  ∀ (env : PlugEnv) (s : Plug), (loadAll env s).1 = true ↔ ∀ c ∈ env.items, env.lib c ∈ (loadAll env s).2.loaded

/-- plugins "A" and "B" in libraries 1 and 2; library 2 can be opened iff `b` -/
def plugDemo (b : Bool) : PlugEnv :=
  ⟨["A", "B"], fun c => if c = "A" then 1 else 2, fun l => if l = 2 then b else true,
   fun l => if l = 1 then [.handle "A" 10, .metadata 5 "A" "int"] else [.metadata 6 "B" "double", .handle "B" 20]⟩

/-- a program without plugins -/
def plugEmpty : Plug := ⟨[], [], []⟩

/-- Both libraries are loaded: false.  One of them fails: true. -/
theorem C64_witness_fails :
    ((loadAll (plugDemo true) plugEmpty).1 = false ∧ (loadAll (plugDemo true) plugEmpty).2.loaded = [1, 2]) ∧
    ((loadAll (plugDemo false) plugEmpty).1 = true ∧ (loadAll (plugDemo false) plugEmpty).2.loaded = [1]) := by
  decide +kernel

theorem C64_fails : ¬ C64_statement := by
  intro h
  have := (h (plugDemo true) plugEmpty).2 (by decide +kernel)
  rw [C64_witness_fails.1.1] at this
  exact absurd this (by simp)

/-- The result is wrong in every case: it is true iff some library could not be loaded. -/
theorem C64_inverted_fails (env : PlugEnv) (s : Plug) :
    (loadAll env s).1 = true ↔ ¬ ∀ c ∈ env.items, env.lib c ∈ (loadAll env s).2.loaded := by
  have h := loadLoop_spec env env.items false s
  refine h.1.trans ?_
  simp only [Bool.false_eq_true, false_or]
  constructor
  · rintro ⟨c, hc, h1, h2⟩ hall
    rcases (h.2 _).1 (hall c hc) with h3 | ⟨h3, -⟩
    · exact h1 h3
    · rw [h2] at h3; exact absurd h3 (by simp)
  · intro hn
    simp only [Classical.not_forall] at hn
    obtain ⟨c, hc, hn⟩ := hn
    refine ⟨c, hc, fun h1 => hn ((h.2 _).2 (.inl h1)), ?_⟩
    cases ho : env.opens (env.lib c)
    · rfl
    · exact absurd ((h.2 (env.lib c)).2 (.inr ⟨ho, c, hc, rfl⟩)) hn

example : ¬ ∀ c ∈ (plugDemo false).items, (plugDemo false).lib c ∈ (loadAll (plugDemo false) plugEmpty).2.loaded := by decide +kernel

/-- Missing compared to C64: the reported result.  A failing library does not stop the others: exactly the libraries of item classes that
can be opened are loaded in addition, each one once, and all they register is known afterwards. -/
theorem C64_effect_partial (env : PlugEnv) (s : Plug) :
    (∀ l, l ∈ (loadAll env s).2.loaded ↔ l ∈ s.loaded ∨ (env.opens l = true ∧ ∃ c ∈ env.items, env.lib c = l)) ∧
    (s.loaded.Nodup → (loadAll env s).2.loaded.Nodup) ∧ s.loaded <+: (loadAll env s).2.loaded ∧
    ((∀ l ∈ s.loaded, ∀ r ∈ env.regs l, Knows s r) → ∀ c ∈ env.items, env.opens (env.lib c) = true → ∀ r ∈ env.regs (env.lib c),
      Knows (loadAll env s).2 r) := by
  have h := loadLoop_spec env env.items false s
  have hi := loadLoop_inv (env := env) env.items false s (Inv.refl env s)
  refine ⟨h.2, hi.nodup, hi.keeps.loaded, ?_⟩
  intro h0 c hc ho r hr
  exact hi.known h0 _ ((h.2 _).2 (.inr ⟨ho, c, hc, rfl⟩)) r hr

/-- library 2 fails; all of library 1 is registered -/
example : (loadAll (plugDemo false) plugEmpty).2 = ⟨[(5, "A", "int")], [("A", 10)], [1]⟩ := by decide +kernel

/-- the library of the first class cannot be opened: the others are loaded all the same; nothing is reported if all are loaded -/
example : (loadAll ⟨["A", "B", "C"], fun c => if c = "A" then 1 else if c = "B" then 2 else 3, fun l => l ≠ 1, fun _ => []⟩ plugEmpty) =
    (true, ⟨[], [], [2, 3]⟩) ∧ (loadAll (plugDemo true) plugEmpty).1 = false := by decide +kernel

end Verif
