import Verif.Spec.Access
import Verif.Lemmas.AMap
set_option linter.unusedSectionVars false
/-! Invariant of the access objects. -/

namespace Verif
namespace AMap
variable {K V : Type} [DecidableEq K]

theorem length_erase_of_get {m : AMap K V} (hn : (keys m).Nodup) {k : K} {v : V} (h : m.get k = some v) :
    (erase m k).length + 1 = m.length := by
  induction m with
  | nil => cases h
  | cons p m ih =>
    obtain ⟨k', v'⟩ := p
    simp only [keys, List.map_cons, List.nodup_cons] at hn
    by_cases hk : k' = k
    · subst hk
      have : erase m k' = m := by
        unfold erase
        rw [List.filter_eq_self]
        rintro ⟨a, b⟩ ha
        simp only [ne_eq, decide_eq_true_eq]
        rintro rfl
        exact hn.1 (List.mem_map.2 ⟨_, ha, rfl⟩)
      have h2 : erase ((k', v') :: m) k' = erase m k' := by simp [erase]
      rw [h2, this]; rfl
    · have h2 : erase ((k', v') :: m) k = (k', v') :: erase m k := by simp [erase, hk]
      rw [h2]
      simp only [get, hk, if_false] at h
      simp only [List.length_cons]
      have := ih hn.2 h
      omega

theorem length_set_of_none {m : AMap K V} {k : K} (v : V) (h : m.get k = none) : (set m k v).length = m.length + 1 := by
  induction m with
  | nil => rfl
  | cons p m ih =>
    obtain ⟨k', v'⟩ := p
    unfold get at h
    split at h
    · cases h
    · rename_i hk
      simp only [set, hk, if_false, List.length_cons, ih h]

end AMap

namespace Access
variable {T : Type} [DecidableEq T]

structure Inv (s : Access T) : Prop where
  kobj : (AMap.keys s.objs).Nodup
  kgrd : (AMap.keys s.guards).Nodup
  lt : ∀ g t, s.guards.get g = some t → g < s.next
  live : ∀ x g, s.objs.get x = some g → ∃ t, s.guards.get g = some t
  used : ∀ g t, s.guards.get g = some t → ∃ x, s.objs.get x = some g
  free : s.owner = none → s.guards.length + s.manual.length = 0
  count : ∀ t n, s.owner = some (t, n) → n = s.guards.length + s.manual.length ∧ 0 < n
  mine : ∀ g u, s.guards.get g = some u → ∃ n, s.owner = some (u, n)
  man : ∀ u ∈ s.manual, ∃ n, s.owner = some (u, n)

theorem Inv.start : Inv (Access.start : Access T) := by
  constructor <;> simp [Access.start, AMap.keys]

theorem used_iff {s : Access T} (h : (AMap.keys s.objs).Nodup) (g : Nat) : g ∈ s.objs.map (·.2) ↔ ∃ x, s.objs.get x = some g := by
  constructor
  · intro hg
    obtain ⟨⟨x, g'⟩, hm, rfl⟩ := List.mem_map.1 hg
    exact ⟨x, AMap.get_of_mem h hm⟩
  · rintro ⟨x, hx⟩
    exact List.mem_map.2 ⟨_, AMap.mem_of_get hx, rfl⟩

theorem release_of {t : T} {n : Nat} : release t (some (t, n)) = some (if n ≤ 1 then none else some (t, n - 1)) := by
  simp [release]

/-- the same mutex and guards, but an object less or changed: guard `g` lost one object -/
theorem unref_spec {s : Access T} {g : Nat} {t : T} {u : T}
    (kobj : (AMap.keys s.objs).Nodup) (kgrd : (AMap.keys s.guards).Nodup) (lt : ∀ g t, s.guards.get g = some t → g < s.next)
    (live : ∀ x g, s.objs.get x = some g → ∃ t, s.guards.get g = some t)
    (used : ∀ g' t, s.guards.get g' = some t → g' ≠ g → ∃ x, s.objs.get x = some g')
    (free : s.owner = none → s.guards.length + s.manual.length = 0)
    (count : ∀ t n, s.owner = some (t, n) → n = s.guards.length + s.manual.length ∧ 0 < n)
    (mine : ∀ g u, s.guards.get g = some u → ∃ n, s.owner = some (u, n))
    (man : ∀ u ∈ s.manual, ∃ n, s.owner = some (u, n)) (hg : s.guards.get g = some u) :
    ((∃ x, s.objs.get x = some g) ∧ unref t g s = .ok true s ∧ Inv s) ∨
    ((∀ x, s.objs.get x ≠ some g) ∧ t = u ∧ ∃ s', unref t g s = .ok true s' ∧ Inv s' ∧ s'.objs = s.objs ∧ s'.manual = s.manual ∧
      s'.guards = s.guards.erase g) ∨
    ((∀ x, s.objs.get x ≠ some g) ∧ t ≠ u ∧ unref t g s = .ub "unlock: mutex owned by another thread") := by
  by_cases hu : g ∈ s.objs.map (·.2)
  · left
    refine ⟨(used_iff kobj g).1 hu, by simp only [unref, hu, if_true], kobj, kgrd, lt, live, ?_, free, count, mine, man⟩
    intro g' t' h'
    by_cases hgg : g' = g
    · subst hgg; exact (used_iff kobj g').1 hu
    · exact used g' t' h' hgg
  · right
    have hno : ∀ x, s.objs.get x ≠ some g := fun x hx => hu ((used_iff kobj g).2 ⟨x, hx⟩)
    obtain ⟨n, hn⟩ := mine g u hg
    obtain ⟨hc, hpos⟩ := count u n hn
    have hlen := AMap.length_erase_of_get kgrd hg
    by_cases htu : t = u
    · left
      subst htu
      refine ⟨hno, rfl, { s with owner := if n ≤ 1 then none else some (t, n - 1), guards := s.guards.erase g }, ?_, ?_, rfl, rfl, rfl⟩
      · unfold unref
        rw [if_neg hu, hn, release_of]
      · have he : ∀ g' t', (s.guards.erase g).get g' = some t' → g' ≠ g ∧ s.guards.get g' = some t' := by
          intro g' t' h'
          rw [AMap.get_erase] at h'
          split at h'
          · cases h'
          · rename_i hne; exact ⟨fun e => hne e.symm, h'⟩
        have hone : n ≤ 1 → (s.guards.erase g) = [] ∧ s.manual = [] := by
          intro h1
          constructor
          · exact List.eq_nil_of_length_eq_zero (by omega)
          · exact List.eq_nil_of_length_eq_zero (by omega)
        refine ⟨kobj, AMap.nodup_keys_erase kgrd g, ?_, ?_, ?_, ?_, ?_, ?_, ?_⟩
        · intro g' t' h'; exact lt g' t' (he g' t' h').2
        · intro x g' hx
          obtain ⟨t', ht'⟩ := live x g' hx
          refine ⟨t', ?_⟩
          show (s.guards.erase g).get g' = _
          rw [AMap.get_erase, if_neg]
          · exact ht'
          · rintro rfl; exact hno x hx
        · intro g' t' h'
          obtain ⟨h1, h2⟩ := he g' t' h'
          exact used g' t' h2 h1
        · intro ho
          show (s.guards.erase g).length + s.manual.length = 0
          have ho : (if n ≤ 1 then none else some (t, n - 1)) = none := ho
          split at ho
          · omega
          · cases ho
        · intro t' m ho
          have ho : (if n ≤ 1 then none else some (t, n - 1)) = some (t', m) := ho
          show m = (s.guards.erase g).length + s.manual.length ∧ 0 < m
          split at ho
          · cases ho
          · simp only [Option.some.injEq, Prod.mk.injEq] at ho
            omega
        · intro g' u' h'
          have hm := mine g' u' (he g' u' h').2
          rw [hn] at hm
          simp only [Option.some.injEq, Prod.mk.injEq, exists_and_left, exists_eq', and_true] at hm
          subst hm
          show ∃ m, (if n ≤ 1 then none else some (t, n - 1)) = some (t, m)
          split
          · rename_i h1
            have h' : (s.guards.erase g).get g' = _ := h'
            rw [(hone h1).1] at h'; cases h'
          · exact ⟨_, rfl⟩
        · intro u' h'
          have hm := man u' h'
          rw [hn] at hm
          simp only [Option.some.injEq, Prod.mk.injEq, exists_and_left, exists_eq', and_true] at hm
          subst hm
          show ∃ m, (if n ≤ 1 then none else some (t, n - 1)) = some (t, m)
          split
          · rename_i h1
            have h' : _ ∈ s.manual := h'
            rw [(hone h1).2] at h'; cases h'
          · exact ⟨_, rfl⟩
    · right
      refine ⟨hno, htu, ?_⟩
      unfold unref
      rw [if_neg hu, hn]
      simp [release, Ne.symm htu]

/-- the outcomes of `drop` -/
theorem drop_spec {s : Access T} (h : Inv s) {x g : Nat} {u : T} (t : T) (hx : s.objs.get x = some g) (hg : s.guards.get g = some u) :
    (Shared s x ∧ step (.drop t x) s = .ok true { s with objs := s.objs.erase x } ∧ Inv { s with objs := s.objs.erase x }) ∨
    (¬ Shared s x ∧ t = u ∧ ∃ s', step (.drop t x) s = .ok true s' ∧ Inv s' ∧ s'.objs = s.objs.erase x ∧ s'.manual = s.manual ∧
      s'.guards = s.guards.erase g) ∨
    (¬ Shared s x ∧ t ≠ u ∧ step (.drop t x) s = .ub "unlock: mutex owned by another thread") := by
  have hget : ∀ y g', (s.objs.erase x).get y = some g' ↔ y ≠ x ∧ s.objs.get y = some g' := by
    intro y g'
    rw [AMap.get_erase]
    split
    · rename_i e; subst e; simp
    · rename_i e; simp [Ne.symm e]
  have hsh : (∃ y, (s.objs.erase x).get y = some g) ↔ Shared s x := by
    simp only [hget, Shared, hx]
  have key := unref_spec (s := { s with objs := s.objs.erase x }) (t := t) (g := g) (u := u) (AMap.nodup_keys_erase h.kobj x) h.kgrd h.lt
    (fun y g' hy => h.live y g' ((hget y g').1 hy).2)
    (fun g' t' h' hne => by
      obtain ⟨y, hy⟩ := h.used g' t' h'
      refine ⟨y, (hget y g').2 ⟨?_, hy⟩⟩
      rintro rfl
      rw [hx] at hy
      exact hne (Option.some.inj hy).symm)
    h.free h.count h.mine h.man hg
  have hst : step (.drop t x) s = unref t g { s with objs := s.objs.erase x } := by simp only [step, hx]
  rw [hst]
  rcases key with ⟨k1, k2, k3⟩ | ⟨k1, k2, k3⟩ | ⟨k1, k2, k3⟩
  · exact .inl ⟨hsh.1 k1, k2, k3⟩
  · exact .inr (.inl ⟨fun hs => by obtain ⟨y, hy⟩ := hsh.2 hs; exact k1 y hy, k2, k3⟩)
  · exact .inr (.inr ⟨fun hs => by obtain ⟨y, hy⟩ := hsh.2 hs; exact k1 y hy, k2, k3⟩)

/-- the outcomes of `y = x`, if they are different accesses -/
theorem assign_spec {s : Access T} (h : Inv s) {x y g g' : Nat} {u : T} (t : T) (hx : s.objs.get x = some g) (hy : s.objs.get y = some g')
    (hne : g ≠ g') (hg : s.guards.get g' = some u) :
    (Shared s y ∧ step (.assign t x y) s = .ok true { s with objs := s.objs.set y g } ∧ Inv { s with objs := s.objs.set y g }) ∨
    (¬ Shared s y ∧ t = u ∧ ∃ s', step (.assign t x y) s = .ok true s' ∧ Inv s' ∧ s'.objs = s.objs.set y g ∧ s'.manual = s.manual ∧
      s'.guards = s.guards.erase g') ∨
    (¬ Shared s y ∧ t ≠ u ∧ step (.assign t x y) s = .ub "unlock: mutex owned by another thread") := by
  have hsh : (∃ z, (s.objs.set y g).get z = some g') ↔ Shared s y := by
    simp only [Shared, hy, AMap.get_set]
    constructor
    · rintro ⟨z, hz⟩
      split at hz
      · exact absurd (Option.some.inj hz) hne
      · rename_i e; exact ⟨z, Ne.symm e, hz⟩
    · rintro ⟨z, h1, h2⟩
      exact ⟨z, by rw [if_neg (Ne.symm h1)]; exact h2⟩
  have key := unref_spec (s := { s with objs := s.objs.set y g }) (t := t) (g := g') (u := u) (AMap.nodup_keys_set h.kobj y g) h.kgrd h.lt
    (fun z g'' hz => by
      have hz : (s.objs.set y g).get z = some g'' := hz
      rw [AMap.get_set] at hz
      split at hz
      · obtain rfl := Option.some.inj hz
        exact h.live x g hx
      · exact h.live z g'' hz)
    (fun g'' t' h' hne' => by
      obtain ⟨z, hz⟩ := h.used g'' t' h'
      refine ⟨z, ?_⟩
      show (s.objs.set y g).get z = _
      rw [AMap.get_set, if_neg]
      · exact hz
      · rintro rfl
        rw [hy] at hz
        exact hne' (Option.some.inj hz).symm)
    h.free h.count h.mine h.man hg
  have hst : step (.assign t x y) s = unref t g' { s with objs := s.objs.set y g } := by simp only [step, hx, hy, if_neg hne]
  rw [hst]
  rcases key with ⟨k1, k2, k3⟩ | ⟨k1, k2, k3⟩ | ⟨k1, k2, k3⟩
  · exact .inl ⟨hsh.1 k1, k2, k3⟩
  · exact .inr (.inl ⟨fun hs => by obtain ⟨z, hz⟩ := hsh.2 hs; exact k1 z hz, k2, k3⟩)
  · exact .inr (.inr ⟨fun hs => by obtain ⟨z, hz⟩ := hsh.2 hs; exact k1 z hz, k2, k3⟩)

/-- the mutex after it was locked once more -/
theorem acquire_spec {s : Access T} (h : Inv s) (t : T) :
    (∃ u n, u ≠ t ∧ s.owner = some (u, n) ∧ acquire t s.owner = none) ∨
    (acquire t s.owner = some (t, s.guards.length + s.manual.length + 1) ∧ (∀ u n, s.owner = some (u, n) → u = t)) := by
  cases ho : s.owner with
  | none =>
    right
    have := h.free ho
    simp [acquire, this]
  | some p =>
    obtain ⟨u, n⟩ := p
    by_cases hu : u = t
    · subst hu
      right
      obtain ⟨h1, -⟩ := h.count u n ho
      simp [acquire, h1]
    · exact .inl ⟨u, n, hu, rfl, by simp [acquire, hu]⟩

theorem step_inv {s s' : Access T} (h : Inv s) {o : AOp T} {b : Bool} (hb : ∀ t, o = .unlock t → t ∈ s.manual)
    (hs : step o s = .ok b s') : Inv s' := by
  cases o with
  | take t x =>
    unfold step at hs
    cases hx : s.objs.get x with
    | some g => simp [hx] at hs
    | none =>
      simp only [hx] at hs
      rcases acquire_spec h t with ⟨u, n, -, -, ha⟩ | ⟨ha, hown⟩
      · simp only [ha, Res.ok.injEq] at hs
        exact hs.2 ▸ h
      · simp only [ha, Res.ok.injEq] at hs
        obtain ⟨-, rfl⟩ := hs
        have hfresh : s.guards.get s.next = none := by
          cases hg : s.guards.get s.next with
          | none => rfl
          | some u => exact absurd (h.lt _ _ hg) (Nat.lt_irrefl _)
        have hlen := AMap.length_set_of_none t hfresh
        refine ⟨AMap.nodup_keys_set h.kobj _ _, AMap.nodup_keys_set h.kgrd _ _, ?_, ?_, ?_, ?_, ?_, ?_, ?_⟩
        · intro g u hg
          have hg : (s.guards.set s.next t).get g = some u := hg
          show g < s.next + 1
          rw [AMap.get_set] at hg
          split at hg
          · omega
          · exact Nat.lt_succ_of_lt (h.lt _ _ hg)
        · intro y g hy
          have hy : (s.objs.set x s.next).get y = some g := hy
          show ∃ u, (s.guards.set s.next t).get g = some u
          rw [AMap.get_set] at hy
          rw [AMap.get_set]
          split at hy
          · obtain rfl := Option.some.inj hy
            simp
          · obtain ⟨u, hu⟩ := h.live y g hy
            split
            · exact ⟨_, rfl⟩
            · exact ⟨u, hu⟩
        · intro g u hg
          have hg : (s.guards.set s.next t).get g = some u := hg
          show ∃ y, (s.objs.set x s.next).get y = some g
          rw [AMap.get_set] at hg
          split at hg
          · rename_i e; subst e; exact ⟨x, by simp⟩
          · obtain ⟨y, hy⟩ := h.used g u hg
            refine ⟨y, ?_⟩
            rw [AMap.get_set, if_neg]
            · exact hy
            · rintro rfl; rw [hx] at hy; cases hy
        · intro ho; cases ho
        · intro t' n ho
          simp only [Option.some.injEq, Prod.mk.injEq] at ho
          obtain ⟨rfl, rfl⟩ := ho
          show _ = (s.guards.set s.next t).length + s.manual.length ∧ _
          omega
        · intro g u hg
          have hg : (s.guards.set s.next t).get g = some u := hg
          rw [AMap.get_set] at hg
          refine ⟨s.guards.length + s.manual.length + 1, ?_⟩
          show some (t, _) = some (u, _)
          split at hg
          · obtain rfl := Option.some.inj hg; rfl
          · obtain ⟨n, hn⟩ := h.mine g u hg
            rw [hown u n hn]
        · intro u hu
          obtain ⟨n, hn⟩ := h.man u hu
          exact ⟨_, by rw [hown u n hn]⟩
  | copy t x y =>
    unfold step at hs
    cases hx : s.objs.get x with
    | none => simp [hx] at hs
    | some g =>
      cases hy : s.objs.get y with
      | some g' => simp [hx, hy] at hs
      | none =>
        simp only [hx, hy, Res.ok.injEq] at hs
        obtain ⟨-, rfl⟩ := hs
        refine ⟨AMap.nodup_keys_set h.kobj _ _, h.kgrd, h.lt, ?_, ?_, h.free, h.count, h.mine, h.man⟩
        · intro z g' hz
          have hz : (s.objs.set y g).get z = some g' := hz
          rw [AMap.get_set] at hz
          split at hz
          · obtain rfl := Option.some.inj hz
            exact h.live x g hx
          · exact h.live z g' hz
        · intro g' u hg
          obtain ⟨z, hz⟩ := h.used g' u hg
          refine ⟨z, ?_⟩
          show (s.objs.set y g).get z = _
          rw [AMap.get_set, if_neg]
          · exact hz
          · rintro rfl; rw [hy] at hz; cases hz
  | assign t x y =>
    cases hx : s.objs.get x with
    | none => simp [step, hx] at hs
    | some g =>
      cases hy : s.objs.get y with
      | none => simp [step, hx, hy] at hs
      | some g' =>
        by_cases hgg : g = g'
        · simp only [step, hx, hy, if_pos hgg, Res.ok.injEq] at hs
          exact hs.2 ▸ h
        · obtain ⟨u, hu⟩ := h.live y g' hy
          rcases assign_spec h t hx hy hgg hu with ⟨-, k1, k2⟩ | ⟨-, -, s2, k1, k2, -⟩ | ⟨-, -, k1⟩
          · rw [k1] at hs; cases hs; exact k2
          · rw [k1] at hs; cases hs; exact k2
          · rw [k1] at hs; cases hs
  | drop t x =>
    cases hx : s.objs.get x with
    | none => simp [step, hx] at hs
    | some g =>
      obtain ⟨u, hu⟩ := h.live x g hx
      rcases drop_spec h t hx hu with ⟨-, k1, k2⟩ | ⟨-, -, s2, k1, k2, -⟩ | ⟨-, -, k1⟩
      · rw [k1] at hs; cases hs; exact k2
      · rw [k1] at hs; cases hs; exact k2
      · rw [k1] at hs; cases hs
  | lock t =>
    unfold step at hs
    rcases acquire_spec h t with ⟨u, n, -, -, ha⟩ | ⟨ha, hown⟩
    · simp only [ha, Res.ok.injEq] at hs
      exact hs.2 ▸ h
    · simp only [ha, Res.ok.injEq] at hs
      obtain ⟨-, rfl⟩ := hs
      refine ⟨h.kobj, h.kgrd, h.lt, h.live, h.used, ?_, ?_, ?_, ?_⟩
      · intro ho; cases ho
      · intro t' n ho
        simp only [Option.some.injEq, Prod.mk.injEq] at ho
        obtain ⟨rfl, rfl⟩ := ho
        simp only [List.length_cons]
        omega
      · intro g u hg
        obtain ⟨n, hn⟩ := h.mine g u hg
        exact ⟨_, by rw [hown u n hn]⟩
      · intro u hu
        have hu : u ∈ t :: s.manual := hu
        rcases List.mem_cons.1 hu with rfl | hu
        · exact ⟨_, rfl⟩
        · obtain ⟨n, hn⟩ := h.man u hu
          exact ⟨_, by rw [hown u n hn]⟩
  | unlock t =>
    have ht := hb t rfl
    obtain ⟨n, hn⟩ := h.man t ht
    obtain ⟨hc, hpos⟩ := h.count t n hn
    simp only [step, hn, release_of, Res.ok.injEq] at hs
    obtain ⟨-, rfl⟩ := hs
    have hlen : (s.manual.erase t).length + 1 = s.manual.length := by
      have := List.length_erase_of_mem ht
      have : 0 < s.manual.length := List.length_pos_of_mem ht
      omega
    have hone : n ≤ 1 → s.guards = [] ∧ s.manual.erase t = [] := by
      intro h1
      constructor <;> refine List.eq_nil_of_length_eq_zero (by omega)
    refine ⟨h.kobj, h.kgrd, h.lt, h.live, h.used, ?_, ?_, ?_, ?_⟩
    · intro ho
      have ho : (if n ≤ 1 then none else some (t, n - 1)) = none := ho
      show s.guards.length + (s.manual.erase t).length = 0
      split at ho
      · omega
      · cases ho
    · intro t' m ho
      have ho : (if n ≤ 1 then none else some (t, n - 1)) = some (t', m) := ho
      show m = s.guards.length + (s.manual.erase t).length ∧ 0 < m
      split at ho
      · cases ho
      · simp only [Option.some.injEq, Prod.mk.injEq] at ho
        omega
    · intro g u hg
      have hm := h.mine g u hg
      rw [hn] at hm
      simp only [Option.some.injEq, Prod.mk.injEq, exists_and_left, exists_eq', and_true] at hm
      subst hm
      show ∃ m, (if n ≤ 1 then none else some (t, n - 1)) = some (t, m)
      split
      · rename_i h1
        have hg : s.guards.get g = _ := hg
        rw [(hone h1).1] at hg; cases hg
      · exact ⟨_, rfl⟩
    · intro u hu
      have hu : u ∈ s.manual.erase t := hu
      have hm := h.man u (List.mem_of_mem_erase hu)
      rw [hn] at hm
      simp only [Option.some.injEq, Prod.mk.injEq, exists_and_left, exists_eq', and_true] at hm
      subst hm
      show ∃ m, (if n ≤ 1 then none else some (t, n - 1)) = some (t, m)
      split
      · rename_i h1
        rw [(hone h1).2] at hu; cases hu
      · exact ⟨_, rfl⟩

theorem step_no_throw {s s' : Access T} {o : AOp T} {x : Exn} : step o s ≠ .throw x s' := by
  intro h
  cases o <;> simp only [step, unref] at h <;> (repeat' split at h) <;> cases h

theorem run_inv (os : List (AOp T)) : ∀ {s s' : Access T}, Inv s → Balanced os s → run os s = some s' → Inv s' := by
  induction os with
  | nil => intro s s' h _ hr; cases hr; exact h
  | cons o os ih =>
    intro s s' h hb hr
    unfold run at hr
    unfold Balanced at hb
    cases hs : step o s with
    | ok b s1 =>
      simp only [hs] at hr hb
      exact ih (step_inv h hb.1 hs) hb.2 hr
    | throw x s1 => exact absurd hs step_no_throw
    | ub m => simp [hs] at hr

end Access
end Verif
