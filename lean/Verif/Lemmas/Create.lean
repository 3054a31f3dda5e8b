import Verif.Model.Create
import Verif.Lemmas.Plugins
/-! # Lemmas about items created by name -/

namespace Verif
open Plug
namespace Libs

theorem findClass_some {ms : List Macro} {c : String} {o : PlugObj} (h : findClass ms c = some o) :
    ∃ m ∈ ms, m.cls = c ∧ o = ⟨c, m.type⟩ := by
  simp only [findClass, Option.map_eq_some_iff] at h
  obtain ⟨m, hm, rfl⟩ := h
  have h1 := List.mem_of_find?_eq_some hm
  have h2 := List.find?_some hm
  simp only [decide_eq_true_eq] at h2
  exact ⟨m, h1, h2, by rw [h2]⟩

theorem findClass_of {ms : List Macro} {m : Macro} (h : m ∈ ms) : ∃ o, findClass ms m.cls = some o := by
  cases hf : findClass ms m.cls with
  | some o => exact ⟨o, rfl⟩
  | none =>
    simp only [findClass, Option.map_eq_none_iff, List.find?_eq_none, decide_eq_true_eq] at hf
    exact absurd rfl (hf m h)

/-- creating an item does to the state what loading the library does -/
theorem create_inv {L : Libs} {s0 s : Plug} (h : Inv L.env s0 s) (c : String) : Inv L.env s0 (L.createEnvireItem c s).2 := by
  unfold createEnvireItem
  split
  · simp only
    split <;> exact loadLibrary_inv h c
  · exact h

theorem createFor_inv {L : Libs} {s0 s : Plug} (h : Inv L.env s0 s) (e : String) : Inv L.env s0 (L.createEnvireItemFor e s).2 := by
  have h1 := create_inv h (itemClass e)
  unfold createEnvireItemFor
  split
  · rename_i o s1 heq; rw [heq] at h1; exact h1
  · rename_i s1 heq
    rw [heq] at h1
    split
    · exact create_inv h1 _
    · exact h1

theorem save_state (L : Libs) (o : PlugObj) (s : Plug) : (L.save o s).2 = (saveWith L.env o.type s).2 := by
  unfold save
  split
  · rename_i heq; rw [heq]
  · rename_i heq
    split <;> rw [heq]

theorem load_state (L : Libs) (h c : String) (s : Plug) : (L.load h c s).2 = (loadWith L.env h s).2 := by
  unfold load
  split
  · rename_i heq; rw [heq]
  · rename_i heq
    split <;> rw [heq]

theorem op_inv {L : Libs} {s0 s : Plug} (h : Inv L.env s0 s) (k : Op) : Inv L.env s0 (L.op k s) := by
  cases k with
  | plug k => exact call_inv h k
  | create c => exact create_inv h c
  | createFor e => exact createFor_inv h e
  | save o => simp only [op, save_state, saveWith_state]; exact isSerializable_inv h _
  | load a b => simp only [op, load_state]; exact loadWith_inv h a

theorem ops_inv {L : Libs} {s0 : Plug} (ks : List Op) : ∀ s, Inv L.env s0 s → Inv L.env s0 (L.ops ks s) := by
  induction ks with
  | nil => exact fun _ h => h
  | cons k ks ih => exact fun s h => ih _ (op_inv h k)

/-- in a process, everything registered comes from a loaded library, and everything in a loaded library is registered -/
structure Proc (L : Libs) (s : Plug) : Prop where
  known : ∀ l ∈ s.loaded, ∀ m ∈ L.macros l, ∀ r ∈ m.regs, Knows s r
  fromM : ∀ t c e, s.mapping.get t = some (c, e) → ∃ l ∈ s.loaded, ∃ m ∈ L.macros l, Reg.metadata t c e ∈ m.regs
  fromH : ∀ c h, s.handles.get c = some h → ∃ l ∈ s.loaded, ∃ m ∈ L.macros l, m.cls = c

theorem metadata_regs {m : Macro} {t : TypeIdx} {c e : String} (h : Reg.metadata t c e ∈ m.regs) : m.type = t ∧ m.cls = c := by
  cases m <;> simp_all [Macro.regs, Macro.type, Macro.cls]

theorem handle_regs {m : Macro} {c : String} {n : Nat} (h : Reg.handle c n ∈ m.regs) : m.cls = c := by
  cases m <;> simp_all [Macro.regs, Macro.cls]

theorem handle_in_regs (m : Macro) : Reg.handle m.cls 0 ∈ m.regs := by
  cases m <;> simp [Macro.regs, Macro.cls]

theorem proc {L : Libs} {s : Plug} (hi : Inv L.env fresh s) : Proc L s := by
  refine ⟨?_, ?_, ?_⟩
  · intro l hl m hm r hr
    exact hi.known (by simp [fresh]) l hl r (List.mem_flatMap.2 ⟨m, hm, hr⟩)
  · intro t c e h
    rcases hi.fromM t (c, e) h with h | ⟨l, hl, h⟩
    · simp [fresh] at h
    · obtain ⟨m, hm, h⟩ := List.mem_flatMap.1 h
      exact ⟨l, hl, m, hm, h⟩
  · intro c n h
    rcases hi.fromH c n h with h | ⟨l, hl, h⟩
    · simp [fresh] at h
    · obtain ⟨m, hm, h⟩ := List.mem_flatMap.1 h
      exact ⟨l, hl, m, hm, handle_regs h⟩

theorem process {L : Libs} (ks : List Op) : Proc L (L.ops ks fresh) := proc (ops_inv ks _ (Inv.refl _ _))

/-- a class of a loaded library is exported -/
theorem exported_of {L : Libs} {s : Plug} {l : Nat} (hl : l ∈ s.loaded) {m : Macro} (hm : m ∈ L.macros l) :
    ∃ o, L.exported s m.cls = some o := findClass_of (List.mem_flatMap.2 ⟨l, hl, hm⟩)

theorem exported_some {L : Libs} {s : Plug} {c : String} {o : PlugObj} (h : L.exported s c = some o) :
    ∃ l ∈ s.loaded, ∃ m ∈ L.macros l, m.cls = c ∧ o = ⟨c, m.type⟩ := by
  obtain ⟨m, hm, h1, h2⟩ := findClass_some h
  obtain ⟨l, hl, hm⟩ := List.mem_flatMap.1 hm
  exact ⟨l, hl, m, hm, h1, h2⟩

/-- after a library was loaded it is in the list -/
theorem loadLibrary_loaded {env : PlugEnv} {c : String} {s : Plug} (h : (loadLibrary env c s).1 = true) :
    env.lib c ∈ (loadLibrary env c s).2.loaded := by
  revert h
  rw [loadLibrary_spec]
  split
  · rename_i h; exact fun _ => h
  · split
    · intro _; simp [openLib]
    · intro h; exact absurd h (by simp)

theorem loadLibrary_opens {env : PlugEnv} {c : String} {s : Plug} (h : env.opens (env.lib c) = true) : (loadLibrary env c s).1 = true := by
  rw [loadLibrary_spec]
  split
  · rfl
  · rfl

end Libs
end Verif
