import Verif.Props.C84
/-! # C85: items and collision objects made for a type or an item fit it -/

namespace Verif
open Libs Plug

/-- The associations of the descriptions are right: a class that is named `Item<e>` or associated with `e` was registered with the data
type `e`. -/
def Libs.RightFor (L : Libs) (e : String) : Prop :=
  (∀ l, ∀ m ∈ L.macros l, m.cls = itemClass e → m.datatype = some e) ∧
  ∀ c, L.assoc e = some c → ∀ l, ∀ m ∈ L.macros l, m.cls = c → m.datatype = some e

/-- The full statement: an item made for the embedded type `e` says at any later time that its embedded type is `e`, and the collision
object made for an item is the one associated with the class of the item. -/
def C85_statement : Prop :=
  ∀ (L : Libs), L.Described → ∀ e, L.RightFor e → ∀ (before after : List Op) (o : PlugObj) (s : Plug),
    L.createEnvireItemFor e (L.ops before fresh) = (some o, s) →
    (L.ops after s).embeddedTypeName o.type = some e ∧ L.createCollisionForItem o (L.ops after s) = L.collision o.cls

/-- a created item comes from a macro of a loaded library -/
private theorem created {L : Libs} {c : String} {s s' : Plug} {o : PlugObj} (h : L.createEnvireItem c s = (some o, s')) :
    L.lib c ∈ s'.loaded ∧ ∃ m ∈ L.macros (L.lib c), m.cls = c ∧ o = ⟨c, m.type⟩ := by
  unfold createEnvireItem at h
  split at h
  · simp only at h
    split at h
    · rename_i ht
      simp only [Prod.mk.injEq] at h
      obtain ⟨h1, rfl⟩ := h
      exact ⟨loadLibrary_loaded ht, findClass_some h1⟩
    · cases h
  · cases h

/-- which class is made -/
private theorem createdFor {L : Libs} {e : String} {s s' : Plug} {o : PlugObj} (h : L.createEnvireItemFor e s = (some o, s')) :
    ∃ c, (c = itemClass e ∨ L.assoc e = some c) ∧ L.lib c ∈ s'.loaded ∧ ∃ m ∈ L.macros (L.lib c), m.cls = c ∧ o = ⟨c, m.type⟩ := by
  unfold createEnvireItemFor at h
  split at h
  · rename_i o1 s1 heq
    cases h
    exact ⟨_, .inl rfl, created heq⟩
  · rename_i s1 heq
    split at h
    · rename_i c hc
      exact ⟨c, .inr hc, created h⟩
    · cases h

private theorem datatype_regs {m : Macro} {d : String} (h : m.datatype = some d) : Reg.metadata m.type m.cls d ∈ m.regs := by
  cases m <;> simp_all [Macro.regs, Macro.type, Macro.cls, Macro.datatype]

private theorem regs_datatype {m : Macro} {t : TypeIdx} {c d : String} (h : Reg.metadata t c d ∈ m.regs) : m.datatype = some d := by
  cases m <;> simp_all [Macro.regs, Macro.datatype]

/-- Missing compared to C85: types that were registered with different spellings of the data type.  Otherwise an item made for `e` says
that its embedded type is `e`, at any later time. -/
theorem C85_embedded_partial (L : Libs) (e : String) (hr : L.RightFor e)
    (hone : ∀ l l' m m' d, m ∈ L.macros l → m' ∈ L.macros l' → m.type = m'.type → m.datatype = some e → m'.datatype = some d → d = e)
    (before after : List Op) (o : PlugObj) (s : Plug) (h : L.createEnvireItemFor e (L.ops before fresh) = (some o, s)) :
    (L.ops after s).embeddedTypeName o.type = some e := by
  obtain ⟨c, hc, hl, m, hm, hmc, rfl⟩ := createdFor h
  have hdt : m.datatype = some e := by
    rcases hc with rfl | hc
    · exact hr.1 _ m hm hmc
    · exact hr.2 c hc _ m hm hmc
  have hi : Inv L.env fresh s := by
    have := createFor_inv (ops_inv before _ (Inv.refl L.env fresh)) e
    rw [h] at this
    exact this
  have hl2 : L.lib c ∈ (L.ops after s).loaded := (ops_inv after _ (Inv.refl L.env s)).keeps.loaded.mem hl
  have hp := proc (ops_inv after _ hi)
  obtain ⟨⟨c', d⟩, hv⟩ := hp.known _ hl2 m hm _ (datatype_regs hdt)
  obtain ⟨l', _, m', hm', hr'⟩ := hp.fromM _ _ _ hv
  have := hone _ _ m m' d hm hm' (metadata_regs hr').1.symm hdt (regs_datatype hr')
  subst this
  simp [embeddedTypeName, hv]

/-- made by the associated class "Vec", and by the name of the item class -/
example : (libsGood.createEnvireItemFor "Eigen::Vector3d" fresh).1 = some ⟨"Vec", 6⟩ ∧
    (libsGood.ops [.plug .all] (libsGood.createEnvireItemFor "Eigen::Vector3d" fresh).2).embeddedTypeName 6 = some "Eigen::Vector3d" ∧
    (libsGood.createEnvireItemFor "int" fresh).1 = some ⟨"envire::core::Item<int>", 5⟩ ∧
    libsGood.createEnvireItemFor "double" fresh = (none, fresh) := by decide +kernel

/-- When it works: with right descriptions an item is made iff `Item<e>` or the associated class is in the descriptions; `Item<e>` has
priority.  If nothing can be made, no library is loaded. -/
theorem C85_which (L : Libs) (hd : L.Described) (e : String) (s : Plug) :
    (itemClass e ∈ L.items → ∃ o s', L.createEnvireItemFor e s = (some o, s') ∧ o.cls = itemClass e) ∧
    (itemClass e ∉ L.items → ∀ c, L.assoc e = some c → c ∈ L.items → ∃ o s', L.createEnvireItemFor e s = (some o, s') ∧ o.cls = c) ∧
    (itemClass e ∉ L.items → (∀ c, L.assoc e = some c → c ∉ L.items) → L.createEnvireItemFor e s = (none, s)) := by
  have yes : ∀ c ∈ L.items, ∀ s, ∃ o s', L.createEnvireItem c s = (some o, s') ∧ o.cls = c := by
    intro c hc s
    obtain ⟨m, hm, hmc⟩ := hd.has c hc
    obtain ⟨o, ho⟩ := findClass_of hm
    rw [hmc] at ho
    obtain ⟨m', hm', hmc', rfl⟩ := findClass_some ho
    have ht : (loadLibrary L.env c s).1 = true := loadLibrary_opens (hd.opens c hc)
    refine ⟨⟨c, m'.type⟩, (loadLibrary L.env c s).2, ?_, rfl⟩
    unfold createEnvireItem
    rw [if_pos (by simpa [Libs.env] using hc)]
    simp only [ht, if_true, ho]
  have no : ∀ c, c ∉ L.items → ∀ s, L.createEnvireItem c s = (none, s) := by
    intro c hc s
    unfold createEnvireItem
    rw [if_neg (by simpa [Libs.env] using hc)]
  refine ⟨?_, ?_, ?_⟩
  · intro h
    obtain ⟨o, s', h1, h2⟩ := yes _ h s
    exact ⟨o, s', by simp only [createEnvireItemFor, h1], h2⟩
  · intro h c hc hci
    obtain ⟨o, s', h1, h2⟩ := yes _ hci s
    exact ⟨o, s', by simp only [createEnvireItemFor, no _ h, hc, h1], h2⟩
  · intro h hc
    simp only [createEnvireItemFor, no _ h]
    cases ha : L.assoc e with
    | none => rfl
    | some c => exact no _ (hc c ha) s

/-- Missing compared to C85: types with several class names.  Otherwise the collision object is the one of the class of the item. -/
theorem C85_collision_partial (L : Libs) (hd : L.Described) (c : String) (hc : c ∈ L.items) (hs : L.Sole c) (before after : List Op) :
    ∃ o s, L.createEnvireItem c (L.ops before fresh) = (some o, s) ∧
      L.createCollisionForItem o (L.ops after s) = L.collision c := by
  obtain ⟨o, s, h1, h2, h3, -⟩ := C84_roundtrip_partial L hd c hc hs before after []
  refine ⟨o, s, h1, ?_⟩
  have hcn : (L.ops after s).className o.type = some c := by
    have hw : ∃ n s2, saveWith L.env o.type (L.ops after s) = (some (c, n), s2) ∧ s2 = L.ops after s := by
      unfold save at h3
      split at h3
      · cases h3
      · rename_i c' n s2 heq
        split at h3
        · simp only [Prod.mk.injEq, Saved.wrote.injEq] at h3
          obtain ⟨⟨rfl, -⟩, h4⟩ := h3
          exact ⟨n, s2, heq, h4⟩
        · cases h3
    obtain ⟨n, s2, hw, hs2⟩ := hw
    rw [hs2] at hw
    have hst := saveWith_state L.env o.type (L.ops after s)
    rw [hw] at hst
    simp only at hst
    unfold saveWith at hw
    simp only [← hst] at hw
    split at hw
    · split at hw
      · cases hw
      · rename_i c' hc'
        split at hw
        · cases hw
        · simp only [Prod.mk.injEq, Option.some.injEq] at hw
          rw [hc', hw.1.1]
    · cases hw
  simp only [createCollisionForItem, hcn, createCollisionFor]

example : let L : Libs := { libsGood with collision := fun c => if c = "Vec" then some "VecCollision" else none }
    L.createCollisionForItem ⟨"Vec", 6⟩ (L.ops [.create "Vec", .plug .all] fresh) = some "VecCollision" ∧
    L.createCollisionForItem ⟨"Vec", 6⟩ fresh = none ∧
    L.createCollisionForItem ⟨"envire::core::Item<int>", 5⟩ (L.ops [.plug .all] fresh) = none := by decide +kernel

/-- two classes for the same type, with two spellings of the data type -/
def libsSpelled : Libs :=
  ⟨["A", "B"], fun c => if c = "A" then 1 else 2, fun _ => true,
   fun l => if l = 1 then [.plugin "A" "int" 5] else if l = 2 then [.plugin "B" "int32_t" 5] else [],
   fun e => if e = "int" then some "A" else if e = "int32_t" then some "B" else none,
   fun c => if c = "A" then some "ACollision" else none⟩

/-- the embedded type and the collision object of an item change when the other library is loaded -/
theorem C85_renamed_fails :
    libsSpelled.createEnvireItemFor "int" fresh = (some ⟨"A", 5⟩, ⟨[(5, "A", "int")], [("A", 0)], [1]⟩) ∧
    (libsSpelled.ops [.plug .all] ⟨[(5, "A", "int")], [("A", 0)], [1]⟩).embeddedTypeName 5 = some "int32_t" ∧
    libsSpelled.createCollisionForItem ⟨"A", 5⟩ ⟨[(5, "A", "int")], [("A", 0)], [1]⟩ = some "ACollision" ∧
    libsSpelled.createCollisionForItem ⟨"A", 5⟩ (libsSpelled.ops [.plug .all] ⟨[(5, "A", "int")], [("A", 0)], [1]⟩) = none := by
  decide +kernel

theorem C85_fails : ¬ C85_statement := by
  intro h
  have hm : ∀ l m, m ∈ libsSpelled.macros l → m = .plugin "A" "int" 5 ∨ m = .plugin "B" "int32_t" 5 := by
    intro l m h
    simp only [libsSpelled] at h
    split at h
    · exact .inl (by simpa using h)
    · split at h
      · exact .inr (by simpa using h)
      · simp at h
  have hd : libsSpelled.Described := by
    refine ⟨fun c _ => rfl, by decide +kernel, ?_⟩
    intro l l' m m' h h' _
    rcases hm l m h with rfl | rfl <;> rcases hm l' m' h' with rfl | rfl <;> rfl
  have hr : libsSpelled.RightFor "int" := by
    refine ⟨?_, ?_⟩
    · intro l m h e
      rcases hm l m h with rfl | rfl <;> revert e <;> decide +kernel
    · intro c hc l m h e
      have : c = "A" := by
        have h2 : libsSpelled.assoc "int" = some "A" := by decide +kernel
        rw [h2] at hc
        exact (Option.some.inj hc).symm
      subst this
      rcases hm l m h with rfl | rfl <;> revert e <;> decide +kernel
  have e := C85_renamed_fails
  have := (h libsSpelled hd "int" hr [] [.plug .all] _ _ e.1).1
  rw [e.2.1] at this
  exact absurd this (by decide)

/-- The version with a down cast: it throws iff the class that was made is for another type; the library stays loaded. -/
theorem C85_cast (L : Libs) (hd : L.Described) (c : String) (t : TypeIdx) (s : Plug) :
    (c ∉ L.items → L.createEnvireItemAs t c s = (.no, s)) ∧
    (c ∈ L.items → ∃ m ∈ L.macros (L.lib c), m.cls = c ∧ L.lib c ∈ (L.createEnvireItemAs t c s).2.loaded ∧
      (L.createEnvireItemAs t c s).1 = if m.type = t then .got ⟨c, t⟩ else .downCastException) := by
  refine ⟨?_, ?_⟩
  · intro hc
    have : L.createEnvireItem c s = (none, s) := by
      unfold createEnvireItem
      rw [if_neg (by simpa [Libs.env] using hc)]
    simp only [createEnvireItemAs, this]
  · intro hc
    obtain ⟨m0, hm0, hmc0⟩ := hd.has c hc
    obtain ⟨o, ho⟩ := findClass_of hm0
    rw [hmc0] at ho
    obtain ⟨m, hm, hmc, rfl⟩ := findClass_some ho
    have ht : (loadLibrary L.env c s).1 = true := loadLibrary_opens (hd.opens c hc)
    have h1 : L.createEnvireItem c s = (some ⟨c, m.type⟩, (loadLibrary L.env c s).2) := by
      unfold createEnvireItem
      rw [if_pos (by simpa [Libs.env] using hc)]
      simp only [ht, if_true, ho]
    have hl := loadLibrary_loaded ht
    refine ⟨m, hm, hmc, ?_, ?_⟩
    · simp only [createEnvireItemAs, h1]
      split <;> exact hl
    · simp only [createEnvireItemAs, h1]
      by_cases he : m.type = t
      · simp [he]
      · simp [he]

example : (libsGood.createEnvireItemAs 6 "Vec" fresh).1 = .got ⟨"Vec", 6⟩ ∧
    (libsGood.createEnvireItemAs 5 "Vec" fresh).1 = .downCastException ∧ (libsGood.createEnvireItemAs 5 "Vec" fresh).2.loaded = [2] := by
  decide +kernel

/-- both `Item<int>` and an associated class are described: `Item<int>` is made -/
example : ({ libsGood with assoc := fun e => if e = "int" then some "Vec" else libsGood.assoc e } : Libs).createEnvireItemFor "int" fresh |>.1
    |> (· = some ⟨"envire::core::Item<int>", 5⟩) := by decide +kernel

end Verif
