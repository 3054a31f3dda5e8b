import Verif.Lemmas.ArchiveVersion
import Verif.Props.C51
/-! # C115: items saved by an older version can still be loaded -/

namespace Verif
variable {D E : Type}

/-- Whatever the version of the file: if the loader knows every class that the saver knows, saving never throws, and loading with the same
version succeeds, reads everything and gives the same types, lists, items and members, as in C51. -/
theorem C115_load_saved (v : Nat) (R : Registry) (H : String → Bool) (hH : ∀ c, R.hasHandle c = true → H c = true)
    (heap : ItemId → SObj D) (m : AMap TypeIdx (List ItemId)) (hm : C51_Map heap m) :
    ∃ w m' a ρ, OArchive.saveMapV (E := E) v R heap m OArchive.new = .ok () w ∧
      IArchive.loadMapV v H (IArchive.new w.out) = .ok m' a ∧ a.toks = [] ∧
      m'.keys = m.keys.filter R.serializable ∧
      (∀ t, R.serializable t = false → m'.get t = none) ∧
      (∀ t l, R.serializable t = true → m.get t = some l → m'.get t = some (l.map ρ) ∧ ∀ i ∈ l, a.objs[ρ i]? = some (heap i)) ∧
      (∀ t l i t' l' j, R.serializable t = true → m.get t = some l → i ∈ l → R.serializable t' = true → m.get t' = some l' → j ∈ l' →
        ρ i = ρ j → i = j) := by
  obtain ⟨w, m', a, ρ, h1, h2, h3, h4, h5, h6, h7⟩ := C51_load_saved (E := E ⊕ Nat) R H hH heap m hm
  refine ⟨w.swap v, m', a.swap v, ρ, ?_, ?_, ?_, h4, h5, h6, h7⟩
  · have := OArchive.saveMapV_swap v R heap m (OArchive.new : OArchive D (E ⊕ Nat))
    rw [h1] at this
    exact this
  · have := IArchive.loadMapV_swap v H (IArchive.new w.out)
    rw [h2] at this
    exact this
  · simp [IArchive.swap, h3]

/-- two types in version 0, one item listed twice; the numbers are `size_t` -/
example : ∃ w, OArchive.saveMapV (E := Unit) 0 C51_reg C51_heap [(1, [5, 3, 5]), (2, [12])] OArchive.new = .ok () w ∧
      w.out.head? = some (.edge (.inr 2)) ∧
      ∃ a, IArchive.loadMapV 0 C51_reg.hasHandle (IArchive.new w.out) = .ok [(1, [0, 1, 0]), (2, [2])] a ∧
        a.objs = [⟨1, 105, 5, "f", -3⟩, ⟨1, 103, 3, "f", -3⟩, ⟨2, 7, 12, "g", 8⟩] :=
  ⟨_, rfl, rfl, _, rfl, rfl⟩

/-- The version makes no difference to what happens with any archive, complete or damaged: an archive of version `v` is loaded as the
corresponding one of the present version, with the same result, the same exceptions and the same undefined behaviour. -/
theorem C115_same_behaviour (v : Nat) (H : String → Bool) (a : IArchive D (E ⊕ Nat)) :
    IArchive.loadMapV v H (a.swap v) = IArchive.swapRes v (IArchive.loadMap H a) := IArchive.loadMapV_swap v H a

/-- a cut archive in both versions -/
example : IArchive.loadMapV (D := Int) (E := Unit) 0 C51_reg.hasHandle (IArchive.new [.edge (.inr 1), .edge (.inr 2), .str "A"]) =
      .throw (.runtimeError "archive_exception: input stream error") ⟨[], []⟩ ∧
    IArchive.loadMapV (D := Int) (E := Unit) 1 C51_reg.hasHandle (IArchive.new [.size 1, .size 2, .str "A"]) =
      .throw (.runtimeError "archive_exception: input stream error") ⟨[], []⟩ := ⟨rfl, rfl⟩

/-- Every version but 0 is the present one, which C51 to C53 are about. -/
theorem C115_present (v : Nat) (hv : v ≠ 0) (R : Registry) (heap : ItemId → SObj D) (m : AMap TypeIdx (List ItemId))
    (w : OArchive D (E ⊕ Nat)) (H : String → Bool) (a : IArchive D (E ⊕ Nat)) :
    OArchive.saveMapV v R heap m w = OArchive.saveMap R heap m w ∧ IArchive.loadMapV v H a = IArchive.loadMap H a := by
  have ht : ∀ t : Tok D (E ⊕ Nat), swapTok v t = t := fun t => by simp [swapTok, hv]
  have hl : ∀ l : List (Tok D (E ⊕ Nat)), l.map (swapTok v) = l := fun l => by
    rw [List.map_congr_left (fun t _ => ht t), List.map_id']
  have e1 : ∀ w : OArchive D (E ⊕ Nat), w.swap v = w := fun w => by simp only [OArchive.swap, hl]
  have e2 : ∀ a : IArchive D (E ⊕ Nat), a.swap v = a := fun a => by simp only [IArchive.swap, hl]
  constructor
  · have := OArchive.saveMapV_swap v R heap m w
    rw [e1] at this
    rw [this]
    cases OArchive.saveMap R heap m w <;> simp [OArchive.swapRes, e1]
  · have := IArchive.loadMapV_swap v H a
    rw [e2] at this
    rw [this]
    cases IArchive.loadMap H a <;> simp [IArchive.swapRes, e2]

/-- the first token that the present version writes -/
example : ∃ w, OArchive.saveMapV (E := Unit) 1 C51_reg C51_heap [(1, [5]), (2, [12])] OArchive.new = .ok () w ∧
    w.out.head? = some (.size 2) := ⟨_, rfl, rfl⟩

/-- The version of the file has to be kept with it: a file of version 0 that is loaded as one of the present version, or the other way
round, is read out of step from its first number on, whatever it contains. -/
theorem C115_mixed_up (v v' : Nat) (hv : v = 0 ↔ v' ≠ 0) (R : Registry) (H H' : String → Bool)
    (hH : ∀ c, R.hasHandle c = true → H c = true) (heap : ItemId → SObj D) (m : AMap TypeIdx (List ItemId)) (hm : C51_Map heap m)
    {w : OArchive D (E ⊕ Nat)} (hw : OArchive.saveMapV v R heap m OArchive.new = .ok () w) :
    IArchive.loadMapV v' H' (IArchive.new w.out) = .ub "archive out of step" := by
  obtain ⟨w', m', a, ρ, h1, h2, -⟩ := C115_load_saved (E := E) v R H hH heap m hm
  rw [hw] at h1
  cases h1
  obtain ⟨out, sv⟩ := w
  cases out with
  | nil => simp [IArchive.loadMapV, IArchive.new, IArchive.read, IArchive.bind] at h2
  | cons t ts =>
    have hno : countTok? v' t = none := by
      have hsome : countTok? v t ≠ none := by
        intro h
        simp [IArchive.loadMapV, IArchive.new, IArchive.read, IArchive.bind, h] at h2
      unfold countTok? at hsome ⊢
      by_cases h0 : v = 0
      · rw [if_pos h0] at hsome
        rw [if_neg (hv.1 h0)]
        cases t with
        | size n => exact absurd rfl hsome
        | _ => rfl
      · rw [if_neg h0] at hsome
        have : v' = 0 := by
          by_contra h
          exact h0 (hv.2 h)
        rw [if_pos this]
        cases t with
        | size n => rfl
        | _ => exact absurd rfl hsome
    simp [IArchive.loadMapV, IArchive.new, IArchive.read, IArchive.bind, hno]

/-- an empty map is enough -/
example : ∃ w, OArchive.saveMapV (E := Unit) 0 C51_reg C51_heap [] OArchive.new = .ok () w ∧
    IArchive.loadMapV 1 C51_reg.hasHandle (IArchive.new w.out) = .ub "archive out of step" := ⟨_, rfl, rfl⟩

end Verif
