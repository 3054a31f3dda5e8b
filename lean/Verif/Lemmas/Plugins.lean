import Verif.Model.Plugins
import Verif.Lemmas.AMap
/-! # Lemmas about plugin libraries and registrations -/
set_option linter.unusedSectionVars false

namespace Verif
namespace Plug

/-- the key of a registration is known -/
def Knows (s : Plug) : Reg → Prop
  | .metadata t _ _ => ∃ v, s.mapping.get t = some v
  | .handle c _ => ∃ h, s.handles.get c = some h

/-- everything known before is known after -/
structure Keeps (s s' : Plug) : Prop where
  types : ∀ t v, s.mapping.get t = some v → ∃ v', s'.mapping.get t = some v'
  handles : ∀ c h, s.handles.get c = some h → ∃ h', s'.handles.get c = some h'
  loaded : s.loaded <+: s'.loaded

theorem Keeps.refl (s : Plug) : Keeps s s := ⟨fun _ v h => ⟨v, h⟩, fun _ v h => ⟨v, h⟩, List.prefix_refl _⟩
theorem Keeps.trans {a b c : Plug} (h : Keeps a b) (h' : Keeps b c) : Keeps a c :=
  ⟨fun t v hv => by obtain ⟨w, hw⟩ := h.types t v hv; exact h'.types t w hw,
   fun t v hv => by obtain ⟨w, hw⟩ := h.handles t v hv; exact h'.handles t w hw, h.loaded.trans h'.loaded⟩
theorem Keeps.knows {a b : Plug} (h : Keeps a b) {r : Reg} (hr : Knows a r) : Knows b r := by
  cases r with
  | metadata t c e => obtain ⟨v, hv⟩ := hr; exact h.types t v hv
  | handle c n => obtain ⟨v, hv⟩ := hr; exact h.handles c v hv

theorem register_keeps (r : Reg) (s : Plug) : Keeps s (register r s) := by
  cases r with
  | metadata t c e =>
    refine ⟨?_, fun _ v h => ⟨v, h⟩, List.prefix_refl _⟩
    intro t' v hv
    simp only [register, AMap.get_set]
    split
    · exact ⟨_, rfl⟩
    · exact ⟨v, hv⟩
  | handle c n =>
    refine ⟨fun _ v h => ⟨v, h⟩, ?_, List.prefix_refl _⟩
    intro t' v hv
    simp only [register, AMap.get_set]
    split
    · exact ⟨_, rfl⟩
    · exact ⟨v, hv⟩

theorem register_knows (r : Reg) (s : Plug) : Knows (register r s) r := by
  cases r with
  | metadata t c e => exact ⟨(c, e), by simp [register]⟩
  | handle c n => exact ⟨n, by simp [register]⟩

theorem registerAll_keeps (rs : List Reg) : ∀ s, Keeps s (registerAll rs s) := by
  induction rs with
  | nil => exact Keeps.refl
  | cons r rs ih => exact fun s => (register_keeps r s).trans (ih _)

theorem registerAll_knows (rs : List Reg) : ∀ s, ∀ r ∈ rs, Knows (registerAll rs s) r := by
  induction rs with
  | nil => simp
  | cons r rs ih =>
    intro s q hq
    rcases List.mem_cons.1 hq with rfl | hq
    · exact (registerAll_keeps rs _).knows (register_knows q s)
    · exact ih _ q hq

/-- where a known class name comes from -/
theorem registerAll_from (rs : List Reg) : ∀ (s : Plug) t v, (registerAll rs s).mapping.get t = some v →
    s.mapping.get t = some v ∨ Reg.metadata t v.1 v.2 ∈ rs := by
  induction rs with
  | nil => exact fun _ _ _ h => .inl h
  | cons r rs ih =>
    intro s t v h
    rcases ih _ t v h with h | h
    · cases r with
      | metadata t' c e =>
        simp only [register, AMap.get_set] at h
        split at h
        · rename_i heq
          simp only [Option.some.injEq] at h
          subst h heq
          exact .inr (List.mem_cons_self ..)
        · exact .inl h
      | handle c n => exact .inl h
    · exact .inr (List.mem_cons_of_mem _ h)

theorem registerAll_handle_from (rs : List Reg) : ∀ (s : Plug) c h, (registerAll rs s).handles.get c = some h →
    s.handles.get c = some h ∨ Reg.handle c h ∈ rs := by
  induction rs with
  | nil => exact fun _ _ _ h => .inl h
  | cons r rs ih =>
    intro s t v h
    rcases ih _ t v h with h | h
    · cases r with
      | handle c n =>
        simp only [register, AMap.get_set] at h
        split at h
        · rename_i heq
          simp only [Option.some.injEq] at h
          subst h heq
          exact .inr (List.mem_cons_self ..)
        · exact .inl h
      | metadata t' c e => exact .inl h
    · exact .inr (List.mem_cons_of_mem _ h)

theorem registerAll_loaded (rs : List Reg) : ∀ s, (registerAll rs s).loaded = s.loaded := by
  induction rs with
  | nil => exact fun _ => rfl
  | cons r rs ih => intro s; refine (ih _).trans ?_; cases r <;> rfl

/-- the loaded libraries are different ones, could be opened, and their registrations are known; what is known comes from one of them or
was there in the program at the start (`s0`) -/
structure Inv (env : PlugEnv) (s0 s : Plug) : Prop where
  opened : ∀ l ∈ s.loaded, l ∈ s0.loaded ∨ env.opens l
  nodup : s0.loaded.Nodup → s.loaded.Nodup
  known : (∀ l ∈ s0.loaded, ∀ r ∈ env.regs l, Knows s0 r) → ∀ l ∈ s.loaded, ∀ r ∈ env.regs l, Knows s r
  fromM : ∀ t v, s.mapping.get t = some v → s0.mapping.get t = some v ∨ ∃ l ∈ s.loaded, Reg.metadata t v.1 v.2 ∈ env.regs l
  fromH : ∀ c h, s.handles.get c = some h → s0.handles.get c = some h ∨ ∃ l ∈ s.loaded, Reg.handle c h ∈ env.regs l
  keeps : Keeps s0 s

theorem Inv.refl (env : PlugEnv) (s : Plug) : Inv env s s :=
  ⟨fun _ h => .inl h, id, id, fun _ _ h => .inl h, fun _ _ h => .inl h, Keeps.refl s⟩

/-- the state after the first load of a library -/
def openLib (env : PlugEnv) (l : Nat) (s : Plug) : Plug := { registerAll (env.regs l) s with loaded := s.loaded ++ [l] }

theorem Inv.open {env : PlugEnv} {s0 s : Plug} (h : Inv env s0 s) {l : Nat} (hl : l ∉ s.loaded) (ho : env.opens l = true) :
    Inv env s0 (openLib env l s) := by
  have hk0 : Keeps s (openLib env l s) := by
    have := registerAll_keeps (env.regs l) s
    exact ⟨this.types, this.handles, List.prefix_append ..⟩
  refine ⟨?_, ?_, ?_, ?_, ?_, h.keeps.trans hk0⟩
  · intro x hx
    rcases List.mem_append.1 hx with hx | hx
    · exact h.opened x hx
    · rw [List.mem_singleton.1 hx]; exact .inr ho
  · intro h0
    refine List.nodup_append.2 ⟨h.nodup h0, by simp, ?_⟩
    intro a ha b hb
    rw [List.mem_singleton.1 hb]
    rintro rfl
    exact hl ha
  · intro h0 x hx r hr
    rcases List.mem_append.1 hx with hx | hx
    · exact hk0.knows (h.known h0 x hx r hr)
    · rw [List.mem_singleton.1 hx] at hr
      have := registerAll_knows (env.regs l) s r hr
      cases r <;> exact this
  · intro t v hv
    rcases registerAll_from (env.regs l) s t v hv with hv | hv
    · rcases h.fromM t v hv with hv | ⟨x, hx, hv⟩
      · exact .inl hv
      · exact .inr ⟨x, List.mem_append_left _ hx, hv⟩
    · exact .inr ⟨l, by simp [openLib], hv⟩
  · intro t v hv
    rcases registerAll_handle_from (env.regs l) s t v hv with hv | hv
    · rcases h.fromH t v hv with hv | ⟨x, hx, hv⟩
      · exact .inl hv
      · exact .inr ⟨x, List.mem_append_left _ hx, hv⟩
    · exact .inr ⟨l, by simp [openLib], hv⟩

theorem loadLibrary_spec (env : PlugEnv) (c : String) (s : Plug) :
    loadLibrary env c s = (if env.lib c ∈ s.loaded then (true, s) else if env.opens (env.lib c) then (true, openLib env (env.lib c) s)
      else (false, s)) := rfl

theorem loadLibrary_inv {env : PlugEnv} {s0 s : Plug} (h : Inv env s0 s) (c : String) : Inv env s0 (loadLibrary env c s).2 := by
  rw [loadLibrary_spec]
  split
  · exact h
  · rename_i hl
    split
    · rename_i ho; exact h.open hl ho
    · exact h

theorem loadItem_inv {env : PlugEnv} {s0 s : Plug} (h : Inv env s0 s) (c : String) : Inv env s0 (loadEnvireItemLibrary env c s).2 := by
  unfold loadEnvireItemLibrary
  split
  · exact loadLibrary_inv h c
  · exact h

theorem loadLoop_inv {env : PlugEnv} {s0 : Plug} (cs : List String) : ∀ (f : Bool) (s : Plug), Inv env s0 s →
    Inv env s0 (loadLoop env cs f s).2 := by
  induction cs with
  | nil => exact fun _ _ h => h
  | cons c cs ih =>
    intro f s h
    unfold loadLoop
    simp only
    split
    · exact ih _ _ (loadLibrary_inv h c)
    · exact ih _ _ (loadLibrary_inv h c)

theorem handleFor_inv {env : PlugEnv} {s0 s : Plug} (h : Inv env s0 s) (c : String) : Inv env s0 (handleFor env c s).2 := by
  unfold handleFor
  split
  · exact h
  · simp only
    split
    · exact loadItem_inv h c
    · split <;> exact loadItem_inv h c

theorem isSerializable_inv {env : PlugEnv} {s0 s : Plug} (h : Inv env s0 s) (t : TypeIdx) : Inv env s0 (isSerializable env t s).2 := by
  unfold isSerializable
  split
  · exact handleFor_inv h _
  · simp only
    have := loadLoop_inv env.items false s h
    split
    · exact this
    · exact handleFor_inv this _

theorem saveWith_state (env : PlugEnv) (t : TypeIdx) (s : Plug) : (saveWith env t s).2 = (isSerializable env t s).2 := by
  unfold saveWith
  simp only
  split
  · split
    · rfl
    · split <;> rfl
  · rfl

theorem loadWith_inv {env : PlugEnv} {s0 s : Plug} (h : Inv env s0 s) (c : String) : Inv env s0 (loadWith env c s).2 := by
  unfold loadWith
  split
  · exact h
  · simp only
    split
    · split <;> exact loadItem_inv h c
    · exact loadItem_inv h c

theorem call_inv {env : PlugEnv} {s0 s : Plug} (h : Inv env s0 s) (k : Call) : Inv env s0 (call env k s) := by
  cases k with
  | load c => exact loadItem_inv h c
  | all => exact loadLoop_inv _ _ _ h
  | serializable t => exact isSerializable_inv h t
  | save t => simp only [call, saveWith_state]; exact isSerializable_inv h t
  | read c => exact loadWith_inv h c

theorem calls_inv {env : PlugEnv} {s0 : Plug} (ks : List Call) : ∀ s, Inv env s0 s → Inv env s0 (calls env ks s) := by
  induction ks with
  | nil => exact fun _ h => h
  | cons k ks ih => exact fun s h => ih _ (call_inv h k)

/-- the loop: its result, and which libraries are loaded after it -/
theorem loadLoop_spec (env : PlugEnv) (cs : List String) : ∀ (f : Bool) (s : Plug),
    ((loadLoop env cs f s).1 = true ↔ f = true ∨ ∃ c ∈ cs, env.lib c ∉ s.loaded ∧ env.opens (env.lib c) = false) ∧
    ∀ l, l ∈ (loadLoop env cs f s).2.loaded ↔ l ∈ s.loaded ∨ (env.opens l = true ∧ ∃ c ∈ cs, env.lib c = l) := by
  induction cs with
  | nil => intro f s; simp [loadLoop]
  | cons c cs ih =>
    intro f s
    unfold loadLoop
    simp only [loadLibrary_spec]
    by_cases hl : env.lib c ∈ s.loaded
    · simp only [hl, if_true, Bool.not_true]
      have := ih f s
      refine ⟨?_, ?_⟩
      · refine this.1.trans ?_
        simp only [List.mem_cons, exists_eq_or_imp, hl, not_true_eq_false, false_and, false_or]
      · intro l
        refine (this.2 l).trans ?_
        simp only [List.mem_cons, exists_eq_or_imp]
        constructor
        · rintro (h | ⟨h, h'⟩)
          · exact .inl h
          · exact .inr ⟨h, .inr h'⟩
        · rintro (h | ⟨h, h' | h'⟩)
          · exact .inl h
          · exact .inl (h' ▸ hl)
          · exact .inr ⟨h, h'⟩
    · by_cases ho : env.opens (env.lib c) = true
      · simp only [hl, ho, if_true, if_false, Bool.not_true]
        have := ih f (openLib env (env.lib c) s)
        refine ⟨?_, ?_⟩
        · refine this.1.trans ?_
          simp only [List.mem_cons, exists_eq_or_imp, ho, openLib, List.mem_append, List.not_mem_nil, or_false]
          constructor
          · rintro (h | ⟨x, hx, h1, h2⟩)
            · exact .inl h
            · exact .inr (.inr ⟨x, hx, fun h => h1 (.inl h), h2⟩)
          · rintro (h | ⟨-, h⟩ | ⟨x, hx, h1, h2⟩)
            · exact .inl h
            · exact absurd h (by simp)
            · refine .inr ⟨x, hx, ?_, h2⟩
              rintro (h | h)
              · exact h1 h
              · rw [h, ho] at h2; exact absurd h2 (by simp)
        · intro l
          refine (this.2 l).trans ?_
          simp only [List.mem_cons, exists_eq_or_imp, openLib, List.mem_append, List.not_mem_nil, or_false]
          constructor
          · rintro ((h | rfl) | ⟨h, h'⟩)
            · exact .inl h
            · exact .inr ⟨ho, .inl rfl⟩
            · exact .inr ⟨h, .inr h'⟩
          · rintro (h | ⟨h, h' | h'⟩)
            · exact .inl (.inl h)
            · exact .inl (.inr h'.symm)
            · exact .inr ⟨h, h'⟩
      · simp only [Bool.not_eq_true] at ho
        simp only [hl, ho, if_false, Bool.not_false, if_true, Bool.false_eq_true]
        have := ih true s
        refine ⟨?_, ?_⟩
        · refine this.1.trans ?_
          simp [List.mem_cons, hl, ho]
        · intro l
          refine (this.2 l).trans ?_
          simp only [List.mem_cons, exists_eq_or_imp]
          constructor
          · rintro (h | ⟨h, h'⟩)
            · exact .inl h
            · exact .inr ⟨h, .inr h'⟩
          · rintro (h | ⟨h, h' | h'⟩)
            · exact .inl h
            · rw [← h', ho] at h; exact absurd h (by simp)
            · exact .inr ⟨h, h'⟩

end Plug
end Verif
