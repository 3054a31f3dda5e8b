import Verif.Lemmas.Create
import Verif.Spec.Described
/-! # C84: an item created by its class name can be saved, and read by another process -/

namespace Verif
open Libs Plug

/-- The full statement: with right plugin descriptions, in every process and after every history, an item of each class can be created;
it can be saved at any later time, and every other process can read it, as an object of the same class. -/
def C84_statement : Prop :=
  ∀ (L : Libs), L.Described → ∀ c ∈ L.items, ∀ (before after other : List Op),
    ∃ o s header, L.createEnvireItem c (L.ops before fresh) = (some o, s) ∧ o.cls = c ∧
      (L.save o (L.ops after s)).1 = .wrote header c ∧ (L.load header c (L.ops other fresh)).1 = .got o

/-- Every class of the descriptions can be created, after every history, and the object is of this class. -/
theorem C84_create (L : Libs) (hd : L.Described) (c : String) (hc : c ∈ L.items) (before : List Op) :
    ∃ o s, L.createEnvireItem c (L.ops before fresh) = (some o, s) ∧ o.cls = c ∧ (∀ l m, m ∈ L.macros l → m.cls = c → o.type = m.type) ∧
      L.lib c ∈ s.loaded := by
  obtain ⟨m, hm, hmc⟩ := hd.has c hc
  obtain ⟨o, ho⟩ := findClass_of hm
  rw [hmc] at ho
  obtain ⟨m', hm', hmc', rfl⟩ := findClass_some ho
  have ht : (loadLibrary L.env c (L.ops before fresh)).1 = true := loadLibrary_opens (hd.opens c hc)
  refine ⟨⟨c, m'.type⟩, (loadLibrary L.env c (L.ops before fresh)).2, ?_, rfl, ?_, loadLibrary_loaded ht⟩
  · unfold createEnvireItem
    rw [if_pos (by simpa [Libs.env] using hc)]
    simp only [ht, if_true, ho]
  · intro l x hx hxc
    exact hd.same _ _ _ _ hm' hx (hmc'.trans hxc.symm)

/-- the item classes of the examples: the first registers one item class, the second another -/
def libsGood : Libs :=
  ⟨["envire::core::Item<int>", "Vec"], fun c => if c = "Vec" then 2 else 1, fun _ => true,
   fun l => if l = 1 then [.item "int" 5] else if l = 2 then [.plugin "Vec" "Eigen::Vector3d" 6] else [],
   fun e => if e = "Eigen::Vector3d" then some "Vec" else none, fun _ => none⟩

example : libsGood.createEnvireItem "Vec" (libsGood.ops [.create "envire::core::Item<int>"] fresh) =
    (some ⟨"Vec", 6⟩, ⟨[(5, "envire::core::Item<int>", "int"), (6, "Vec", "Eigen::Vector3d")],
      [("envire::core::Item<int>", 0), ("Vec", 0)], [1, 2]⟩) := by decide +kernel

/-- Missing compared to C84: types that are registered with several class names, and the old macro without data type.  Otherwise the
statement holds; the header has the name of the class. -/
theorem C84_roundtrip_partial (L : Libs) (hd : L.Described) (c : String) (hc : c ∈ L.items) (hs : L.Sole c)
    (before after other : List Op) :
    ∃ o s, L.createEnvireItem c (L.ops before fresh) = (some o, s) ∧ o.cls = c ∧
      L.save o (L.ops after s) = (.wrote c c, L.ops after s) ∧ (L.load c c (L.ops other fresh)).1 = .got o := by
  obtain ⟨o, s, h1, h2, h3, h4⟩ := C84_create L hd c hc before
  refine ⟨o, s, h1, h2, ?_, ?_⟩
  · have hi : Inv L.env fresh s := by
      have := create_inv (ops_inv before _ (Inv.refl L.env fresh)) c
      rw [h1] at this
      exact this
    have hl : L.lib c ∈ (L.ops after s).loaded := (ops_inv after _ (Inv.refl L.env s)).keeps.loaded.mem h4
    have hp := proc (ops_inv after _ hi)
    generalize L.ops after s = s2 at hl hp ⊢
    obtain ⟨m, hm, hmc⟩ := hd.has c hc
    have ht := h3 _ m hm hmc
    obtain ⟨d, hdt⟩ := Option.ne_none_iff_exists'.1 (hs.named _ m hm hmc)
    have hreg : Reg.metadata m.type m.cls d ∈ m.regs := by
      cases m <;> simp_all [Macro.regs, Macro.type, Macro.cls, Macro.datatype]
    obtain ⟨⟨c', e⟩, hv⟩ := hp.known _ hl m hm _ hreg
    obtain ⟨n, hn⟩ := hp.known _ hl m hm _ (handle_in_regs m)
    obtain ⟨l', _, m', hm', hr'⟩ := hp.fromM _ _ _ hv
    obtain ⟨e1, e2⟩ := metadata_regs hr'
    have hc' : c' = c := e2.symm.trans (hs.only _ _ _ _ hm hm' hmc e1.symm)
    subst hc'
    rw [hmc] at hn
    have hcn : s2.className o.type = some c' := by simp [className, ht, hv]
    have hser : isSerializable L.env o.type s2 = (true, s2) := by
      unfold isSerializable
      rw [hcn]
      simp only [handleFor, hasHandle, hn]
      rfl
    have hsave : saveWith L.env o.type s2 = (some (c', n), s2) := by
      simp only [saveWith, hser, if_true, hcn, getHandle, hn]
    obtain ⟨x, hx⟩ := exported_of hl hm
    rw [hmc] at hx
    unfold save
    rw [hsave]
    simp only [h2, hx]
    rfl
  · have hi := ops_inv other _ (Inv.refl L.env fresh)
    generalize L.ops other fresh = s2 at hi ⊢
    obtain ⟨m, hm, hmc⟩ := hd.has c hc
    have key : ∃ n s3, loadWith L.env c s2 = (some n, s3) ∧ Proc L s3 ∧ s3.handles.get c = some n := by
      have hi3 := loadWith_inv hi c
      unfold loadWith at hi3 ⊢
      split
      · rename_i hh
        obtain ⟨n, hn⟩ := Option.isSome_iff_exists.1 hh
        exact ⟨n, s2, by simp [getHandle, hn], proc hi, hn⟩
      · rename_i hh
        have hii := loadItem_inv hi c
        have ht : (loadLibrary L.env c s2).1 = true := loadLibrary_opens (hd.opens c hc)
        have he : loadEnvireItemLibrary L.env c s2 = loadLibrary L.env c s2 := by
          unfold loadEnvireItemLibrary
          rw [if_pos (by simpa [hasEnvireItem, Libs.env] using hc)]
        rw [he] at hii ⊢
        have hpr := proc hii
        obtain ⟨n, hn⟩ := hpr.known _ (loadLibrary_loaded ht) m hm _ (handle_in_regs m)
        rw [hmc] at hn
        refine ⟨n, _, ?_, hpr, hn⟩
        simp only [ht, if_true, hasHandle, hn, getHandle, Option.isSome_some]
    obtain ⟨n, s3, k1, k2, k3⟩ := key
    obtain ⟨l, hl, m2, hm2, hmc2⟩ := k2.fromH c n k3
    obtain ⟨x, hx⟩ := exported_of hl hm2
    rw [hmc2] at hx
    obtain ⟨l', hl', m3, hm3, hmc3, rfl⟩ := exported_some hx
    unfold load
    rw [k1]
    simp only [hx]
    have := h3 _ m3 hm3 hmc3
    rw [Loaded.got.injEq, ← this, ← h2]

/-- created, both libraries loaded, saved; another process reads it -/
example : (libsGood.save ⟨"Vec", 6⟩ (libsGood.ops [.create "Vec", .plug .all] fresh)).1 = .wrote "Vec" "Vec" ∧
    libsGood.load "Vec" "Vec" fresh = (.got ⟨"Vec", 6⟩, ⟨[(6, "Vec", "Eigen::Vector3d")], [("Vec", 0)], [2]⟩) := by decide +kernel

example : libsGood.Described ∧ libsGood.Sole "Vec" := by
  have hm : ∀ l m, m ∈ libsGood.macros l → m = .item "int" 5 ∧ l = 1 ∨ m = .plugin "Vec" "Eigen::Vector3d" 6 ∧ l = 2 := by
    intro l m h
    simp only [libsGood] at h
    split at h
    · rename_i e; exact .inl ⟨by simpa using h, e⟩
    · split at h
      · rename_i e; exact .inr ⟨by simpa using h, e⟩
      · simp at h
  refine ⟨⟨?_, by decide +kernel, ?_⟩, ⟨?_, ?_⟩⟩
  · intro c _; rfl
  · intro l l' m m' h h' e
    rcases hm l m h with ⟨rfl, -⟩ | ⟨rfl, -⟩ <;> rcases hm l' m' h' with ⟨rfl, -⟩ | ⟨rfl, -⟩ <;> revert e <;> decide +kernel
  · intro l m h e
    rcases hm l m h with ⟨rfl, -⟩ | ⟨rfl, -⟩ <;> revert e <;> decide +kernel
  · intro l l' m m' h h' e e'
    rcases hm l m h with ⟨rfl, -⟩ | ⟨rfl, -⟩ <;> rcases hm l' m' h' with ⟨rfl, -⟩ | ⟨rfl, -⟩ <;> revert e e' <;> decide +kernel

/-- What a new process can read: with the header `h`, exactly the classes of the library of `h`; for all others the exception of boost
leaves `load`. -/
theorem C84_fresh (L : Libs) (hd : L.Described) (h c : String) (hh : h ∈ L.items) :
    (L.load h c fresh).1 = match findClass (L.macros (L.lib h)) c with
      | some o => .got o
      | none => .archiveException := by
  obtain ⟨m, hm, hmc⟩ := hd.has h hh
  have ho : L.env.opens (L.env.lib h) = true := hd.opens h hh
  have hl : loadLibrary L.env h fresh = (true, openLib L.env (L.lib h) fresh) := by
    rw [loadLibrary_spec, if_neg (by simp [fresh]), if_pos ho]
    rfl
  obtain ⟨n, hn⟩ : Knows (openLib L.env (L.lib h) fresh) (.handle h 0) := by
    have := registerAll_knows (L.env.regs (L.lib h)) fresh (.handle h 0)
      (List.mem_flatMap.2 ⟨m, hm, hmc ▸ handle_in_regs m⟩)
    exact this
  have hw : loadWith L.env h fresh = (some n, openLib L.env (L.lib h) fresh) := by
    have hit : hasEnvireItem L.env h = true := by simpa [hasEnvireItem, Libs.env] using hh
    have hno : (fresh.handles.get h).isSome = false := rfl
    simp only [loadWith, loadEnvireItemLibrary, hit, hl, if_true, hasHandle, hn, getHandle, Option.isSome_some, hno]
    simp
  have he : L.exported (openLib L.env (L.lib h) fresh) c = findClass (L.macros (L.lib h)) c := by
    simp [exported, openLib, fresh]
  unfold load
  rw [hw]
  simp only [he]
  split <;> simp_all

/-- two classes for the same data type in two libraries, made with `ENVIRE_PLUGIN` -/
def libsTwo : Libs :=
  ⟨["A", "B"], fun c => if c = "A" then 1 else 2, fun _ => true,
   fun l => if l = 1 then [.plugin "A" "int" 5] else if l = 2 then [.plugin "B" "int" 5] else [], fun _ => none, fun _ => none⟩

theorem libsTwo_described : libsTwo.Described := by
  have hm : ∀ l m, m ∈ libsTwo.macros l → m = .plugin "A" "int" 5 ∨ m = .plugin "B" "int" 5 := by
    intro l m h
    simp only [libsTwo] at h
    split at h
    · exact .inl (by simpa using h)
    · split at h
      · exact .inr (by simpa using h)
      · simp at h
  refine ⟨fun c _ => rfl, by decide +kernel, ?_⟩
  intro l l' m m' h h' _
  rcases hm l m h with rfl | rfl <;> rcases hm l' m' h' with rfl | rfl <;> rfl

/-- What is written in general, also for types with several class names: the class of the object, and in the header a class that a loaded
library registered for the same type.  A process in which the library of the class of the object is loaded can read it. -/
theorem C84_header (L : Libs) (hd : L.Described) (c : String) (hc : c ∈ L.items)
    (hn : ∀ l, ∀ m ∈ L.macros l, m.cls = c → m.datatype ≠ none) (before after : List Op) :
    ∃ o s header, L.createEnvireItem c (L.ops before fresh) = (some o, s) ∧ o.cls = c ∧
      L.save o (L.ops after s) = (.wrote header c, L.ops after s) ∧
      (∃ l ∈ (L.ops after s).loaded, ∃ m ∈ L.macros l, m.cls = header ∧ m.type = o.type) ∧
      ∀ other, header ∈ L.items → L.lib c ∈ (L.ops other fresh).loaded → (L.load header c (L.ops other fresh)).1 = .got o := by
  obtain ⟨o, s, h1, h2, h3, h4⟩ := C84_create L hd c hc before
  have hi : Inv L.env fresh s := by
    have := create_inv (ops_inv before _ (Inv.refl L.env fresh)) c
    rw [h1] at this
    exact this
  have hl : L.lib c ∈ (L.ops after s).loaded := (ops_inv after _ (Inv.refl L.env s)).keeps.loaded.mem h4
  have hp := proc (ops_inv after _ hi)
  obtain ⟨s2, hs2⟩ : ∃ x, x = L.ops after s := ⟨_, rfl⟩
  rw [← hs2] at hl hp
  obtain ⟨m, hm, hmc⟩ := hd.has c hc
  have ht := h3 _ m hm hmc
  obtain ⟨d, hdt⟩ := Option.ne_none_iff_exists'.1 (hn _ m hm hmc)
  have hreg : Reg.metadata m.type m.cls d ∈ m.regs := by
    cases m <;> simp_all [Macro.regs, Macro.type, Macro.cls, Macro.datatype]
  obtain ⟨⟨header, e⟩, hv⟩ := hp.known _ hl m hm _ hreg
  obtain ⟨l', hl', m', hm', hr'⟩ := hp.fromM _ _ _ hv
  obtain ⟨e1, e2⟩ := metadata_regs hr'
  obtain ⟨n, hh⟩ := hp.known _ hl' m' hm' _ (handle_in_regs m')
  rw [e2] at hh
  have hcn : s2.className o.type = some header := by simp [className, ht, hv]
  have hser : isSerializable L.env o.type s2 = (true, s2) := by
    unfold isSerializable
    rw [hcn]
    simp only [handleFor, hasHandle, hh]
    rfl
  have hsave : saveWith L.env o.type s2 = (some (header, n), s2) := by
    simp only [saveWith, hser, if_true, hcn, getHandle, hh]
  obtain ⟨x, hx⟩ := exported_of hl hm
  rw [hmc] at hx
  subst hs2
  refine ⟨o, s, header, h1, h2, ?_, ⟨l', hl', m', hm', e2, e1.trans ht.symm⟩, ?_⟩
  · unfold save
    rw [hsave]
    simp only [h2, hx]
    rfl
  · intro other hhi hlo
    have hio := ops_inv other _ (Inv.refl L.env fresh)
    generalize L.ops other fresh = s4 at hio hlo ⊢
    obtain ⟨mh, hmh, hmhc⟩ := hd.has header hhi
    have key : ∃ k s3, loadWith L.env header s4 = (some k, s3) ∧ L.lib c ∈ s3.loaded := by
      unfold loadWith
      split
      · rename_i hy
        obtain ⟨k, hk⟩ := Option.isSome_iff_exists.1 hy
        exact ⟨k, s4, by simp [getHandle, hk], hlo⟩
      · have hii := loadItem_inv hio header
        have hkk := loadItem_inv (Inv.refl L.env s4) header
        have htt : (loadLibrary L.env header s4).1 = true := loadLibrary_opens (hd.opens header hhi)
        have he : loadEnvireItemLibrary L.env header s4 = loadLibrary L.env header s4 := by
          unfold loadEnvireItemLibrary
          rw [if_pos (by simpa [hasEnvireItem, Libs.env] using hhi)]
        rw [he] at hii hkk ⊢
        obtain ⟨k, hk⟩ := (proc hii).known _ (loadLibrary_loaded htt) mh hmh _ (handle_in_regs mh)
        rw [hmhc] at hk
        refine ⟨k, _, ?_, hkk.keeps.loaded.mem hlo⟩
        simp only [htt, if_true, hasHandle, hk, getHandle, Option.isSome_some]
    obtain ⟨k, s3, k1, k2⟩ := key
    obtain ⟨y, hy⟩ := exported_of k2 hm
    rw [hmc] at hy
    obtain ⟨l3, _, m3, hm3, hmc3, rfl⟩ := exported_some hy
    unfold load
    rw [k1]
    simp only [hy]
    have := h3 _ m3 hm3 hmc3
    rw [Loaded.got.injEq, ← this, ← h2]

/-- saved with the header "B", read as "A" by a process that has loaded the library of "A" -/
example : (libsTwo.save ⟨"A", 5⟩ (libsTwo.ops [.create "A", .create "B"] fresh)).1 = .wrote "B" "A" ∧
    (libsTwo.load "B" "A" (libsTwo.ops [.create "A"] fresh)).1 = .got ⟨"A", 5⟩ ∧
    (libsTwo.save ⟨"B", 5⟩ (libsTwo.ops [.create "B", .create "A"] fresh)).1 = .wrote "A" "B" := by decide +kernel

/-- An item of class "A" is created, then the library of "B" is loaded; the item is saved under the name "B", and a new process that
reads it gets an exception, although it could load the library of "A". -/
theorem C84_two_fails :
    libsTwo.createEnvireItem "A" fresh = (some ⟨"A", 5⟩, ⟨[(5, "A", "int")], [("A", 0)], [1]⟩) ∧
    (libsTwo.save ⟨"A", 5⟩ (libsTwo.ops [.create "B"] ⟨[(5, "A", "int")], [("A", 0)], [1]⟩)).1 = .wrote "B" "A" ∧
    (libsTwo.load "B" "A" fresh).1 = .archiveException ∧
    (libsTwo.load "B" "A" (libsTwo.ops [.create "A"] fresh)).1 = .got ⟨"A", 5⟩ := by decide +kernel

theorem C84_fails : ¬ C84_statement := by
  intro h
  obtain ⟨o, s, hd, h1, h2, h3, h4⟩ := h libsTwo libsTwo_described "A" (by decide) [] [.create "B"] []
  have e := C84_two_fails
  have h1' : (some o, s) = (some ⟨"A", 5⟩, ⟨[(5, "A", "int")], [("A", 0)], [1]⟩) := h1.symm.trans e.1
  simp only [Prod.mk.injEq, Option.some.injEq] at h1'
  obtain ⟨rfl, rfl⟩ := h1'
  rw [e.2.1] at h3
  simp only [Saved.wrote.injEq, and_true] at h3
  subst h3
  have := e.2.2.1
  rw [show libsTwo.ops [] fresh = fresh from rfl, this] at h4
  exact absurd h4 (by simp)

/-- With the old macro without data type an item can be created but not saved: the macro registers no class name. -/
theorem C84_unnamed_fails :
    let L : Libs := ⟨["A"], fun _ => 1, fun _ => true, fun _ => [.plugin1 "A" 5], fun _ => none, fun _ => none⟩
    (L.createEnvireItem "A" fresh).1 = some ⟨"A", 5⟩ ∧ (L.save ⟨"A", 5⟩ (L.createEnvireItem "A" fresh).2).1 = .no := by decide +kernel

end Verif
