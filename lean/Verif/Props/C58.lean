import Verif.Model.Util
import Verif.Lemmas.AMap
/-! # C58: the manager returns one graph per name -/

namespace Verif
namespace Manager

/-- every name is mapped to a graph of its own that was created before -/
private structure Inv (m : Manager) : Prop where
  old : ∀ n v, m.graphs.get n = some v → ∃ p, v = some p ∧ p < m.fresh
  inj : ∀ n n' v, m.graphs.get n = some v → m.graphs.get n' = some v → n = n'

private theorem getInstance_spec {m : Manager} (h : Inv m) (n : String) :
    ∃ p, (getInstance n m).1 = some p ∧ Inv (getInstance n m).2 ∧ (getInstance n m).2.graphs.get n = some (some p) ∧
      ∀ n' v, m.graphs.get n' = some v → (getInstance n m).2.graphs.get n' = some v := by
  cases hg : m.graphs.get n with
  | some v =>
    obtain ⟨p, rfl, hp⟩ := h.old n v hg
    have h1 : m.graphs.insertNew n none = m.graphs := by simp [AMap.insertNew, hg]
    have h2 : getInstance n m = (some p, m) := by simp [getInstance, h1, hg]
    rw [h2]; exact ⟨p, rfl, h, hg, fun _ _ h => h⟩
  | none =>
    have h1 : ∀ n', (m.graphs.insertNew n none).get n' = if n = n' then some none else m.graphs.get n' := by
      intro n'
      rw [AMap.get_insertNew]
      by_cases e : n = n'
      · subst e; simp [hg]
      · cases hx : m.graphs.get n' <;> simp [e]
    have h2 : getInstance n m = (some m.fresh, ⟨(m.graphs.insertNew n none).set n (some m.fresh), m.fresh + 1⟩) := by
      simp [getInstance, h1]
    have h3 : ∀ n', ((m.graphs.insertNew n none).set n (some m.fresh)).get n' = if n = n' then some (some m.fresh) else m.graphs.get n' := by
      intro n'
      rw [AMap.get_set, h1]
      by_cases e : n = n' <;> simp [e]
    rw [h2]
    refine ⟨m.fresh, rfl, ⟨?_, ?_⟩, by simp, ?_⟩
    · intro n' v hv
      simp only [h3] at hv
      split at hv
      · simp at hv; exact ⟨m.fresh, hv.symm, Nat.lt_succ_self _⟩
      · obtain ⟨p, h4, h5⟩ := h.old n' v hv; exact ⟨p, h4, Nat.lt_succ_of_lt h5⟩
    · intro n1 n2 v hv1 hv2
      simp only [h3] at hv1 hv2
      split at hv1 <;> split at hv2
      · rename_i e1 e2; exact e1 ▸ e2
      · rename_i e1 e2; simp at hv1; subst hv1
        obtain ⟨p, h4, h5⟩ := h.old n2 _ hv2; simp at h4; omega
      · rename_i e1 e2; simp at hv2; subst hv2
        obtain ⟨p, h4, h5⟩ := h.old n1 _ hv1; simp at h4; omega
      · exact h.inj _ _ _ hv1 hv2
    · intro n' v hv
      simp only [h3]
      split
      · rename_i e; subst e; rw [hg] at hv; simp at hv
      · exact hv

private theorem calls_spec : ∀ (ns : List String) {m : Manager}, Inv m →
    (calls ns m).1.length = ns.length ∧ Inv (calls ns m).2 ∧ (∀ n' v, m.graphs.get n' = some v → (calls ns m).2.graphs.get n' = some v) ∧
    ∀ (i : Nat) (n : String), ns[i]? = some n → ∃ p, (calls ns m).1[i]? = some (some p) ∧ (calls ns m).2.graphs.get n = some (some p)
  | [], m, h => ⟨rfl, h, fun _ _ h => h, by simp⟩
  | n :: ns, m, h => by
    obtain ⟨p, h1, h2, h3, h4⟩ := getInstance_spec h n
    obtain ⟨h5, h6, h7, h8⟩ := calls_spec ns h2
    refine ⟨by simp [calls, h5], h6, fun n' v hv => h7 _ _ (h4 _ _ hv), ?_⟩
    intro i x hx
    cases i with
    | zero => simp at hx; subst hx; exact ⟨p, by simp [calls, h1], h7 _ _ h3⟩
    | succ i => simpa [calls] using h8 i x (by simpa using hx)

end Manager
open Manager

/-- Every sequence of calls from the start of the program: the i-th call returns a graph, and two calls return the same graph iff they
were made with the same name. -/
theorem C58_one_graph_per_name (ns : List String) : (calls ns init).1.length = ns.length ∧
    (∀ i, i < ns.length → ∃ p, (calls ns init).1[i]? = some (some p)) ∧
    ∀ i j, i < ns.length → j < ns.length → ((calls ns init).1[i]? = (calls ns init).1[j]? ↔ ns[i]? = ns[j]?) := by
  obtain ⟨h1, h2, -, h4⟩ := calls_spec ns (m := init) ⟨by simp [init], by simp [init]⟩
  refine ⟨h1, fun i hi => ?_, fun i j hi hj => ?_⟩
  · obtain ⟨p, hp, -⟩ := h4 i _ (List.getElem?_eq_getElem hi); exact ⟨p, hp⟩
  · obtain ⟨p, hp, hp'⟩ := h4 i _ (List.getElem?_eq_getElem hi)
    obtain ⟨q, hq, hq'⟩ := h4 j _ (List.getElem?_eq_getElem hj)
    rw [hp, hq, List.getElem?_eq_getElem hi, List.getElem?_eq_getElem hj]
    constructor
    · intro e; simp at e; subst e; rw [h2.inj _ _ _ hp' hq']
    · intro e; simp at e; rw [e, hq'] at hp'; rw [← Option.some.inj hp']

example : (calls ["a", "b", "a", "", "b"] init).1 = [some 0, some 1, some 0, some 2, some 1] := by decide +kernel

end Verif
