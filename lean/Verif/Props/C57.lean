import Verif.Model.Util
/-! # C57: escaping type names is lossless -/

namespace Verif

/-- Remove the backslash before each angle brace. -/
def C57_unescape : List Char → List Char
  | '\\' :: '<' :: s => '<' :: C57_unescape s
  | '\\' :: '>' :: s => '>' :: C57_unescape s
  | c :: s => c :: C57_unescape s
  | [] => []

private theorem replace_one (c : Char) (f : List Char) : ∀ n s, s.length ≤ n →
    replaceAll [c] f n s = s.flatMap (fun d => if d = c then f else [d]) := by
  intro n
  induction n with
  | zero => intro s hs; obtain rfl : s = [] := by cases s <;> simp_all
            rfl
  | succ n ih =>
    intro s hs
    cases s with
    | nil => rfl
    | cons d s =>
      simp only [List.length_cons, Nat.add_le_add_iff_right] at hs
      simp only [replaceAll, List.flatMap_cons, List.length_singleton, List.drop_succ_cons, List.drop_zero, ih s hs]
      by_cases h : d = c
      · subst h; simp [List.isPrefixOf]
      · have : ¬ c = d := fun e => h e.symm
        simp [List.isPrefixOf, h, this]

/-- A backslash is put before every angle brace, nothing else changes. -/
theorem C57_escape (s : List Char) : escapeAngleBraces s = s.flatMap (fun c => if c = '<' ∨ c = '>' then ['\\', c] else [c]) := by
  simp only [escapeAngleBraces, replace_one _ _ _ _ (Nat.le_refl _), List.flatMap_assoc]
  congr 1; funext c
  by_cases h1 : c = '<'
  · subst h1; rfl
  · by_cases h2 : c = '>'
    · subst h2; rfl
    · simp [h1, h2]

example : escapeAngleBraces "a<b>".toList = "a\\<b\\>".toList := by decide +kernel

/-- Removing the backslashes before the braces gives back the input; so different names stay different. -/
theorem C57_lossless (s : List Char) : C57_unescape (escapeAngleBraces s) = s := by
  rw [C57_escape]
  induction s with
  | nil => rfl
  | cons c s ih =>
    rw [List.flatMap_cons]
    by_cases h1 : c = '<'
    · subst h1; simp [C57_unescape, ih]
    · by_cases h2 : c = '>'
      · subst h2; simp [C57_unescape, ih]
      · rw [if_neg (by simp [h1, h2]), List.singleton_append]
        rw [C57_unescape, ih]
        · intro s' hc hs'
          cases s with
          | nil => simp at hs'
          | cons d s =>
            rw [List.flatMap_cons] at hs'
            split at hs'
            · simp at hs'
            · rename_i hd; simp at hs'; simp [hs'.1] at hd
        · intro s' hc hs'
          cases s with
          | nil => simp at hs'
          | cons d s =>
            rw [List.flatMap_cons] at hs'
            split at hs'
            · simp at hs'
            · rename_i hd; simp at hs'; simp [hs'.1] at hd

/-- Different names stay different. -/
theorem C57_injective (s t : List Char) (h : escapeAngleBraces s = escapeAngleBraces t) : s = t := by
  rw [← C57_lossless s, h, C57_lossless]

/-- a name that has a backslash before the brace itself -/
example : escapeAngleBraces "a\\<".toList = "a\\\\<".toList ∧ escapeAngleBraces "a<".toList = "a\\<".toList := by decide +kernel

example : escapeAngleBraces "Item<vector<int>>\\<".toList = "Item\\<vector\\<int\\>\\>\\\\<".toList := by decide +kernel
example : C57_unescape "Item\\<vector\\<int\\>\\>\\\\<".toList = "Item<vector<int>>\\<".toList := by decide +kernel

end Verif
