import Verif.Lemmas.Plugins
/-! # C77: isSerializable tells whether save can find class name and handle

`save` here is `saveWith`: the class name that is written and the handle that is used; `none`: `save` returns false and writes nothing. -/

namespace Verif
open Plug

/-- A type is registered with one class name only: by all libraries, and in the program `s`. -/
def Plug.OneName (env : PlugEnv) (s : Plug) (t : TypeIdx) : Prop :=
  ∃ c, (∀ v, s.mapping.get t = some v → v.1 = c) ∧ ∀ l c' e, Reg.metadata t c' e ∈ env.regs l → c' = c

/-- The full statement: the answer is what `save` finds, and an item that can be saved can be saved at any later time. -/
def C77_statement : Prop :=
  ∀ (env : PlugEnv) (t : TypeIdx) (s : Plug), ((isSerializable env t s).1 = true ↔ (saveWith env t s).1.isSome = true) ∧
    ∀ ks, (isSerializable env t s).1 = true → (isSerializable env t (calls env ks (isSerializable env t s).2)).1 = true

theorem handleFor_true {env : PlugEnv} {c : String} {s s' : Plug} (h : handleFor env c s = (true, s')) :
    ∃ n, s'.handles.get c = some n := by
  unfold handleFor at h
  split at h
  · rename_i hh
    cases h
    exact Option.isSome_iff_exists.1 hh
  · simp only at h
    split at h
    · cases h
    · split at h
      · rename_i hh
        cases h
        exact Option.isSome_iff_exists.1 hh
      · cases h

theorem handleFor_have {env : PlugEnv} {c : String} {s : Plug} {n : Nat} (h : s.handles.get c = some n) : handleFor env c s = (true, s) := by
  unfold handleFor
  rw [if_pos]
  simp [hasHandle, h]

/-- Two libraries that register different class names for the same type (two classes made with ENVIRE_PLUGIN for the same data type do):
the item can be saved at first, and not any more after the second library was loaded. -/
def plugTwo : PlugEnv :=
  ⟨["A", "B"], fun c => if c = "A" then 1 else 2, fun _ => true,
   fun l => if l = 1 then [.handle "A" 10, .metadata 5 "A" "int"] else [.metadata 5 "B" "int"]⟩

theorem C77_renamed_fails :
    (isSerializable plugTwo 5 ⟨[(5, "A", "int")], [("A", 10)], [1]⟩).1 = true ∧
    (isSerializable plugTwo 5 (calls plugTwo [.load "B"] (isSerializable plugTwo 5 ⟨[(5, "A", "int")], [("A", 10)], [1]⟩).2)).1 = false := by
  decide +kernel

theorem C77_fails : ¬ C77_statement := by
  intro h
  have := (h plugTwo 5 ⟨[(5, "A", "int")], [("A", 10)], [1]⟩).2 [.load "B"] C77_renamed_fails.1
  rw [C77_renamed_fails.2] at this
  exact absurd this (by simp)

theorem className_loadLibrary {env : PlugEnv} {s0 s : Plug} {t : TypeIdx} (hi : Inv env s0 s) (h1 : OneName env s0 t) {c : String}
    (hc : s.className t = some c) : ∃ d, (∀ v, s0.mapping.get t = some v → v.1 = d) ∧ (∀ l c' e, Reg.metadata t c' e ∈ env.regs l → c' = d) ∧
      c = d := by
  obtain ⟨d, h2, h3⟩ := h1
  refine ⟨d, h2, h3, ?_⟩
  simp only [className, Option.map_eq_some_iff] at hc
  obtain ⟨v, hv, rfl⟩ := hc
  rcases hi.fromM t v hv with h | ⟨l, _, h⟩
  · exact h2 v h
  · exact h3 _ _ _ h

/-- the class name is the same in both states if both know one -/
theorem className_same {env : PlugEnv} {s0 s s' : Plug} {t : TypeIdx} (hi : Inv env s0 s) (hi' : Inv env s0 s') (h1 : OneName env s0 t)
    {c c' : String} (hc : s.className t = some c) (hc' : s'.className t = some c') : c = c' := by
  obtain ⟨d, h2, h3, rfl⟩ := className_loadLibrary hi h1 hc
  obtain ⟨d', h2', h3', rfl⟩ := className_loadLibrary hi' h1 hc'
  simp only [className, Option.map_eq_some_iff] at hc
  obtain ⟨v, hv, rfl⟩ := hc
  rcases hi.fromM t v hv with h | ⟨l, _, h⟩
  · exact h2' v h
  · exact h3' _ _ _ h

/-- Missing compared to C77: types that are registered under several names.  The answer is true iff `save` finds class name and handle
(`save` needs no further library then, and loads none); otherwise `save` returns false in the same state. -/
theorem C77_save_partial (env : PlugEnv) (t : TypeIdx) (s : Plug) (h1 : OneName env s t) :
    (∀ s', isSerializable env t s = (true, s') → ∃ c h, s'.className t = some c ∧ s'.getHandle c = some h ∧
      saveWith env t s = (some (c, h), s') ∧ loadWith env c s' = (some h, s')) ∧
    (∀ s', isSerializable env t s = (false, s') → saveWith env t s = (none, s')) := by
  constructor
  · intro s' h
    have hi' : Inv env s s' := by
      have := isSerializable_inv (Inv.refl env s) t
      rw [h] at this
      exact this
    have : ∃ s1 c, Inv env s s1 ∧ s1.className t = some c ∧ handleFor env c s1 = (true, s') ∧ Keeps s1 s' := by
      unfold isSerializable at h
      split at h
      · rename_i c hc
        refine ⟨s, c, Inv.refl env s, hc, h, ?_⟩
        have := handleFor_inv (Inv.refl env s) c
        rw [h] at this
        exact this.keeps
      · simp only at h
        split at h
        · cases h
        · rename_i c hc
          refine ⟨(loadAll env s).2, c, loadLoop_inv _ _ _ (Inv.refl env s), hc, h, ?_⟩
          have := handleFor_inv (Inv.refl env (loadAll env s).2) c
          rw [h] at this
          exact this.keeps
    obtain ⟨s1, c, hi1, hc, hh, hk⟩ := this
    obtain ⟨n, hn⟩ := handleFor_true hh
    have hc0 : ∃ v, s1.mapping.get t = some v := by
      simp only [className, Option.map_eq_some_iff] at hc
      obtain ⟨v, hv, _⟩ := hc
      exact ⟨v, hv⟩
    obtain ⟨v, hv⟩ := hc0
    obtain ⟨v', hv'⟩ := hk.types t v hv
    have hc' : s'.className t = some v'.1 := by simp [className, hv']
    have hsame := className_same hi1 hi' h1 hc hc'
    rw [← hsame] at hc'
    refine ⟨c, n, hc', hn, ?_, ?_⟩
    · simp only [saveWith, h, if_true, hc', getHandle, hn]
    · unfold loadWith
      rw [if_pos (by simp [hasHandle, hn])]
      simp [getHandle, hn]
  · intro s' h
    simp [saveWith, h]

/-- the type 6 is not known at first: all libraries are loaded; then `save` finds "B" and handle 20 -/
example : ∃ env s', isSerializable env 6 ⟨[], [], []⟩ = (true, s') ∧ s'.loaded = [1, 2] ∧ s'.className 6 = some "B" ∧
    (saveWith env 6 ⟨[], [], []⟩).1 = some ("B", 20) := by
  refine ⟨⟨["A", "B"], fun c => if c = "A" then 1 else 2, fun _ => true,
    fun l => if l = 1 then [.handle "A" 10, .metadata 5 "A" "int"] else [.metadata 6 "B" "double", .handle "B" 20]⟩, _, rfl, ?_⟩
  decide +kernel

/-- Missing compared to C77: types with several names.  True stays true: after any further calls the answer is the same, and no library
has to be loaded for it. -/
theorem C77_stays_partial (env : PlugEnv) (t : TypeIdx) (s : Plug) (h1 : OneName env s t) (ks : List Call)
    (h : (isSerializable env t s).1 = true) :
    isSerializable env t (calls env ks (isSerializable env t s).2) = (true, calls env ks (isSerializable env t s).2) := by
  obtain ⟨c, n, hc, hn, -, -⟩ := (C77_save_partial env t s h1).1 (isSerializable env t s).2 (by rw [← h])
  have hi := isSerializable_inv (Inv.refl env s) t
  have hi2 := calls_inv ks _ hi
  have hk := (calls_inv ks _ (Inv.refl env (isSerializable env t s).2)).keeps
  obtain ⟨n', hn'⟩ := hk.handles c n hn
  have hv : ∃ v, (isSerializable env t s).2.mapping.get t = some v := by
    simp only [className, Option.map_eq_some_iff] at hc
    obtain ⟨v, hv, _⟩ := hc
    exact ⟨v, hv⟩
  obtain ⟨v, hv⟩ := hv
  obtain ⟨v', hv'⟩ := hk.types t v hv
  have hc' : (calls env ks (isSerializable env t s).2).className t = some v'.1 := by simp [className, hv']
  have := className_same hi hi2 h1 hc hc'
  rw [← this] at hc'
  generalize calls env ks (isSerializable env t s).2 = s2 at hc' hn' ⊢
  unfold isSerializable
  rw [hc']
  exact handleFor_have hn'

/-- the other libraries are loaded later; the type keeps its name and handle -/
example : (isSerializable plugTwo 7 (calls plugTwo [.all] ⟨[(7, "D", "char")], [("D", 1)], []⟩)) =
    (true, ⟨[(7, "D", "char"), (5, "B", "int")], [("D", 1), ("A", 10)], [1, 2]⟩) := by decide +kernel

/-- False has a reason: either no library of an item class that can be opened registers the type, and the program did not know it; or the
class name is known, but neither is there a handle nor a library for the class that could be loaded and would register one. -/
theorem C77_false (env : PlugEnv) (t : TypeIdx) (s : Plug) (hk : ∀ l ∈ s.loaded, ∀ r ∈ env.regs l, Knows s r)
    (h : (isSerializable env t s).1 = false) :
    (s.className t = none ∧ ∀ c ∈ env.items, env.opens (env.lib c) = true → ∀ d e, Reg.metadata t d e ∉ env.regs (env.lib c)) ∨
    ∃ c, (s.className t = some c ∨ s.className t = none ∧ (loadAll env s).2.className t = some c) ∧
      s.handles.get c = none ∧ (isSerializable env t s).2.handles.get c = none ∧
      (c ∉ env.items ∨ env.opens (env.lib c) = false ∨ ∀ n, Reg.handle c n ∉ env.regs (env.lib c)) := by
  have core : ∀ (c : String) (s1 : Plug), (∀ l ∈ s1.loaded, ∀ r ∈ env.regs l, Knows s1 r) → (handleFor env c s1).1 = false →
      s1.handles.get c = none ∧ (handleFor env c s1).2.handles.get c = none ∧
      (c ∉ env.items ∨ env.opens (env.lib c) = false ∨ ∀ n, Reg.handle c n ∉ env.regs (env.lib c)) := by
    intro c s1 hk1 hf
    unfold handleFor at hf ⊢
    by_cases hh : s1.hasHandle c = true
    · rw [if_pos hh] at hf; exact absurd hf (by simp)
    · rw [if_neg hh] at hf ⊢
      have hnone : s1.handles.get c = none := by
        simp only [hasHandle, Option.isSome_iff_ne_none, ne_eq, Classical.not_not] at hh
        exact hh
      refine ⟨hnone, ?_⟩
      have hkey : (loadEnvireItemLibrary env c s1).2.handles.get c = none →
          (loadEnvireItemLibrary env c s1).1 = true → ∀ n, Reg.handle c n ∉ env.regs (env.lib c) := by
        intro hn ht n hr
        have hi := (loadItem_inv (Inv.refl env s1) c).known hk1
        have hl : env.lib c ∈ (loadEnvireItemLibrary env c s1).2.loaded := by
          revert ht
          unfold loadEnvireItemLibrary
          split
          · rw [loadLibrary_spec]
            split
            · rename_i h; exact fun _ => h
            · split
              · intro _; simp [openLib]
              · intro h; exact absurd h (by simp)
          · intro h; exact absurd h (by simp)
        obtain ⟨m, hm⟩ := hi _ hl _ hr
        rw [hn] at hm
        exact absurd hm (by simp)
      simp only at hf ⊢
      by_cases ht : (loadEnvireItemLibrary env c s1).1 = true
      · simp only [ht, Bool.not_true, Bool.false_eq_true, if_false] at hf ⊢
        by_cases hh2 : (loadEnvireItemLibrary env c s1).2.hasHandle c = true
        · rw [if_pos hh2] at hf; exact absurd hf (by simp)
        · rw [if_neg hh2]
          have hn : (loadEnvireItemLibrary env c s1).2.handles.get c = none := by
            simp only [hasHandle, Option.isSome_iff_ne_none, ne_eq, Classical.not_not] at hh2
            exact hh2
          exact ⟨hn, .inr (.inr (hkey hn ht))⟩
      · simp only [Bool.not_eq_true] at ht
        simp only [ht, Bool.not_false, if_true]
        revert ht
        unfold loadEnvireItemLibrary
        split
        · rw [loadLibrary_spec]
          split
          · intro h; exact absurd h (by simp)
          · split
            · intro h; exact absurd h (by simp)
            · rename_i ho
              intro _
              exact ⟨hnone, .inr (.inl (by simpa using ho))⟩
        · rename_i hc
          intro _
          refine ⟨hnone, .inl ?_⟩
          simpa [hasEnvireItem] using hc
  unfold isSerializable at h ⊢
  split at h
  · rename_i c hc
    refine .inr ⟨c, .inl hc, ?_⟩
    exact core c s hk h
  · rename_i hc
    have hi := loadLoop_inv (env := env) env.items false s (Inv.refl env s)
    simp only at h ⊢
    split at h
    · rename_i hc1
      refine .inl ⟨hc, ?_⟩
      intro c hcm ho d e hr
      have hl := ((loadLoop_spec env env.items false s).2 (env.lib c)).2 (.inr ⟨ho, c, hcm, rfl⟩)
      obtain ⟨v, hv⟩ := hi.known hk _ hl _ hr
      have : (loadAll env s).2.mapping.get t = some v := hv
      rw [className, this] at hc1
      exact absurd hc1 (by simp)
    · rename_i c hc1
      obtain ⟨g1, g2, g3⟩ := core c _ (hi.known hk) h
      refine .inr ⟨c, .inr ⟨hc, hc1⟩, ?_, g2, g3⟩
      cases hs : s.handles.get c with
      | none => rfl
      | some n =>
        obtain ⟨n', hn'⟩ := hi.keeps.handles c n hs
        rw [hn'] at g1
        exact absurd g1 (by simp)

/-- the class "C" is known, but its library registers no handle -/
example : (isSerializable ⟨["C"], fun _ => 1, fun _ => true, fun _ => [.metadata 5 "C" "int"]⟩ 5 ⟨[], [], []⟩) =
    (false, ⟨[(5, "C", "int")], [], [1]⟩) := by decide +kernel

/-- Nothing that was registered gets lost, by any calls: known types stay known, handles stay, loaded libraries stay, and none is loaded
twice. -/
theorem C77_kept (env : PlugEnv) (s : Plug) (ks : List Call) :
    (∀ t, s.className t ≠ none → (calls env ks s).className t ≠ none) ∧ (∀ c, s.hasHandle c = true → (calls env ks s).hasHandle c = true) ∧
    s.loaded <+: (calls env ks s).loaded ∧ (s.loaded.Nodup → (calls env ks s).loaded.Nodup) ∧
    ∀ l ∈ (calls env ks s).loaded, l ∈ s.loaded ∨ env.opens l = true := by
  have hi := calls_inv ks s (Inv.refl env s)
  refine ⟨?_, ?_, hi.keeps.loaded, hi.nodup, hi.opened⟩
  · intro t ht
    cases hv : s.mapping.get t with
    | none => exact absurd (by simp [className, hv]) ht
    | some v =>
      obtain ⟨v', hv'⟩ := hi.keeps.types t v hv
      simp [className, hv']
  · intro c hc
    obtain ⟨n, hn⟩ := Option.isSome_iff_exists.1 hc
    obtain ⟨n', hn'⟩ := hi.keeps.handles c n hn
    simp [hasHandle, hn']

example : (calls plugTwo [.load "A", .all, .serializable 7, .save 5, .load "A"] ⟨[], [], []⟩) = ⟨[(5, "B", "int")], [("A", 10)], [1, 2]⟩ := by
  decide +kernel

/-- Once all libraries that can be opened are loaded, `isSerializable` changes nothing and answers as the model of the archives assumes
(`Registry.serializable`), and so does `save`. -/
theorem C77_settled (env : PlugEnv) (t : TypeIdx) (s : Plug) (h : ∀ c ∈ env.items, env.opens (env.lib c) = true → env.lib c ∈ s.loaded) :
    isSerializable env t s = (Registry.serializable ⟨s.className, s.hasHandle⟩ t, s) ∧
    ((saveWith env t s).1.isSome = Registry.serializable ⟨s.className, s.hasHandle⟩ t ∧ (saveWith env t s).2 = s) := by
  have hload : ∀ c, c ∈ env.items → (loadLibrary env c s).2 = s := by
    intro c hc
    rw [loadLibrary_spec]
    split
    · rfl
    · split
      · rename_i hl ho; exact absurd (h c hc ho) hl
      · rfl
  have hitem : ∀ c, (loadEnvireItemLibrary env c s).2 = s := by
    intro c
    unfold loadEnvireItemLibrary
    split
    · rename_i hc; exact hload c (by simpa [hasEnvireItem] using hc)
    · rfl
  have hloop : ∀ (cs : List String) (f : Bool), (∀ c ∈ cs, c ∈ env.items) → (loadLoop env cs f s).2 = s := by
    intro cs
    induction cs with
    | nil => exact fun _ _ => rfl
    | cons c cs ih =>
      intro f hcs
      unfold loadLoop
      simp only [hload c (hcs c (List.mem_cons_self ..))]
      split <;> exact ih _ (fun x hx => hcs x (List.mem_cons_of_mem _ hx))
  have hhandle : ∀ c, handleFor env c s = (s.hasHandle c, s) := by
    intro c
    unfold handleFor
    by_cases hh : s.hasHandle c = true
    · rw [if_pos hh, hh]
    · rw [if_neg hh]
      simp only [hitem, hh]
      simp
  have e : isSerializable env t s = (Registry.serializable ⟨s.className, s.hasHandle⟩ t, s) := by
    unfold isSerializable Registry.serializable
    cases hc : s.className t with
    | some c => simp only [hhandle, hc]
    | none =>
      simp only [loadAll, hloop env.items false (fun _ hx => hx), hc]
  refine ⟨e, ?_⟩
  unfold saveWith
  rw [e]
  unfold Registry.serializable
  cases hc : s.className t with
  | none => simp [hc]
  | some c =>
    cases hh : s.handles.get c with
    | none => simp [hc, hasHandle, hh]
    | some n => simp [hc, hasHandle, getHandle, hh]

example : Registry.serializable ⟨(⟨[(5, "A", "int")], [("A", 10)], [1]⟩ : Plug).className, (⟨[(5, "A", "int")], [("A", 10)], [1]⟩ : Plug).hasHandle⟩ 5
    = true := by decide +kernel

/-- only the library of the class is loaded for a known type without handle; a class that is no item class is not loaded -/
example : (isSerializable ⟨["A", "B"], fun c => if c = "A" then 1 else 2, fun _ => true, fun l => if l = 1 then [.handle "A" 10] else [.handle "B" 20]⟩
      6 ⟨[(6, "B", "double")], [], []⟩) = (true, ⟨[(6, "B", "double")], [("B", 20)], [2]⟩) ∧
    (loadEnvireItemLibrary ⟨["A"], fun _ => 1, fun _ => true, fun _ => [.handle "Z" 3]⟩ "Z" ⟨[], [], []⟩) = (false, ⟨[], [], []⟩) := by
  decide +kernel

end Verif
