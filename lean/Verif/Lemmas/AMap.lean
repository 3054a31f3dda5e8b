import Verif.Model.AMap
import Mathlib.Data.List.Basic
import Mathlib.Data.List.Nodup
/-! Lemmas about association maps. -/

namespace Verif.AMap
variable {K V : Type} [DecidableEq K]

@[simp] theorem get_nil (k : K) : get ([] : AMap K V) k = none := rfl

theorem get_cons (p : K × V) (m : AMap K V) (k : K) :
    get (p :: m) k = if p.1 = k then some p.2 else get m k := by
  cases p; rfl

theorem get_set (m : AMap K V) (k k' : K) (v : V) :
    get (set m k v) k' = if k = k' then some v else get m k' := by
  induction m with
  | nil => simp [set, get_cons]
  | cons p m ih =>
    obtain ⟨a, b⟩ := p
    simp only [set]
    split
    · subst a; simp only [get_cons]; split <;> rfl
    · simp only [get_cons, ih]; split <;> split <;> simp_all

@[simp] theorem get_set_self (m : AMap K V) (k : K) (v : V) : get (set m k v) k = some v := by
  simp [get_set]

theorem get_set_ne {m : AMap K V} {k k' : K} {v : V} (h : k ≠ k') : get (set m k v) k' = get m k' := by
  simp [get_set, h]

theorem get_erase (m : AMap K V) (k k' : K) :
    get (erase m k) k' = if k = k' then none else get m k' := by
  induction m with
  | nil => simp [erase]
  | cons p m ih =>
    obtain ⟨a, b⟩ := p
    simp only [erase, List.filter_cons] at ih ⊢
    by_cases h : a = k
    · subst h
      simp only [ne_eq, not_true_eq_false, decide_false, Bool.false_eq_true, if_false, ih, get_cons]
      split <;> simp_all
    · simp only [ne_eq, h, not_false_eq_true, decide_true, if_true, get_cons, ih]
      split <;> split <;> simp_all

theorem get_append (m m' : AMap K V) (k : K) :
    get (m ++ m') k = match get m k with | some v => some v | none => get m' k := by
  induction m with
  | nil => simp
  | cons p m ih =>
    simp only [List.cons_append, get_cons, ih]
    split <;> simp_all

theorem mem_of_get {m : AMap K V} {k : K} {v : V} (h : get m k = some v) : (k, v) ∈ m := by
  induction m with
  | nil => simp at h
  | cons p m ih =>
    rw [get_cons] at h
    split at h
    · simp_all
      left; ext <;> simp_all
    · exact List.mem_cons_of_mem _ (ih h)

theorem get_eq_none_iff {m : AMap K V} {k : K} : get m k = none ↔ k ∉ keys m := by
  induction m with
  | nil => simp [keys]
  | cons p m ih =>
    rw [get_cons]
    simp only [keys, List.map_cons, List.mem_cons, not_or] at ih ⊢
    split
    · simp_all
    · rw [ih]; constructor
      · intro h; refine ⟨fun h' => ?_, h⟩; simp_all
      · exact fun h => h.2

theorem mem_keys_iff {m : AMap K V} {k : K} : k ∈ keys m ↔ ∃ v, get m k = some v := by
  constructor
  · intro h
    cases hg : get m k with
    | none => exact absurd h (get_eq_none_iff.1 hg)
    | some v => exact ⟨v, rfl⟩
  · rintro ⟨v, hv⟩ 
    by_contra h
    rw [get_eq_none_iff.2 h] at hv
    cases hv

theorem get_of_mem {m : AMap K V} (hn : (keys m).Nodup) {k : K} {v : V} (h : (k, v) ∈ m) :
    get m k = some v := by
  induction m with
  | nil => simp at h
  | cons p m ih =>
    simp only [keys, List.map_cons, List.nodup_cons] at hn
    rw [get_cons]
    rcases List.mem_cons.1 h with h | h
    · subst h; simp
    · have : p.1 ≠ k := by
        rintro rfl
        exact hn.1 (List.mem_map.2 ⟨_, h, rfl⟩)
      simp only [this, if_false]
      exact ih hn.2 h

theorem get_eq_some_iff {m : AMap K V} (hn : (keys m).Nodup) {k : K} {v : V} :
    get m k = some v ↔ (k, v) ∈ m := ⟨mem_of_get, get_of_mem hn⟩

theorem keys_set (m : AMap K V) (k : K) (v : V) :
    keys (set m k v) = if k ∈ keys m then keys m else keys m ++ [k] := by
  induction m with
  | nil => simp [set, keys]
  | cons p m ih =>
    obtain ⟨a, b⟩ := p
    simp only [set]
    split
    · subst a; simp [keys]
    · rename_i h
      simp only [keys, List.map_cons, List.mem_cons] at ih ⊢
      rw [ih]
      by_cases h' : k ∈ List.map (fun x => x.fst) m
      · simp only [h', or_true, if_true]
      · simp only [h', or_false, if_false, Ne.symm h, List.cons_append]

theorem keys_erase (m : AMap K V) (k : K) : keys (erase m k) = (keys m).filter (fun x => x ≠ k) := by
  simp [keys, erase, List.filter_map, Function.comp_def]

theorem nodup_keys_set {m : AMap K V} (h : (keys m).Nodup) (k : K) (v : V) : (keys (set m k v)).Nodup := by
  rw [keys_set]; split
  · exact h
  · rename_i hk
    exact List.nodup_append.2 ⟨h, by simp, by intro a ha b hb; simp at hb; subst hb; rintro rfl; exact hk ha⟩

theorem nodup_keys_erase {m : AMap K V} (h : (keys m).Nodup) (k : K) : (keys (erase m k)).Nodup := by
  rw [keys_erase]; exact h.filter _

theorem get_insertNew (m : AMap K V) (k k' : K) (v : V) :
    get (insertNew m k v) k' = match get m k' with
      | some w => some w
      | none => if k = k' then some v else none := by
  unfold insertNew
  split
  · rename_i w hw
    cases h : get m k' with
    | some w => rfl
    | none => 
      have : k ≠ k' := by rintro rfl; simp_all
      simp [this]
  · rw [get_append]
    cases h : get m k' <;> simp [get_cons]

end Verif.AMap
