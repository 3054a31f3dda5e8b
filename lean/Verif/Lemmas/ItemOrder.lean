import Verif.Spec.ItemOrder
import Verif.Lemmas.Opaque
import Verif.Lemmas.Reenter
import Verif.Lemmas.ItemCalls
set_option linter.unusedSectionVars false
/-! Pairs of shuffled frames as one frame property. -/

namespace Verif
variable {E : Type} [EdgeProp E] {ty : ItemId → TypeIdx}

theorem AMap.perm_of_get {K V : Type} [DecidableEq K] {m m' : AMap K V} (h : (AMap.keys m).Nodup) (h' : (AMap.keys m').Nodup)
    (hg : ∀ k, m'.get k = m.get k) : m'.Perm m := by
  have n1 : m.Nodup := List.Nodup.of_map _ h
  have n2 : m'.Nodup := List.Nodup.of_map _ h'
  rw [List.perm_ext_iff_of_nodup n2 n1]
  rintro ⟨k, v⟩
  rw [← AMap.get_eq_some_iff h, ← AMap.get_eq_some_iff h', hg]

theorem AMap.get_of_perm {K V : Type} [DecidableEq K] {m m' : AMap K V} (h : (AMap.keys m).Nodup) (hp : m'.Perm m) (k : K) :
    m'.get k = m.get k := by
  have h' : (AMap.keys m').Nodup := (hp.map _).nodup_iff.2 h
  apply Option.ext
  intro v
  rw [AMap.get_eq_some_iff h, AMap.get_eq_some_iff h', hp.mem_iff]

namespace EFrame

theorem Shuffle.refl (a : EFrame) : a.Shuffle a := ⟨rfl, .refl _⟩

theorem Shuffle.get {a b : EFrame} (h : a.Shuffle b) (ha : a.Sound ty) (t : TypeIdx) : b.items.get t = a.items.get t :=
  AMap.get_of_perm ha.keys h.items t

theorem Sound.of_shuffle {a b : EFrame} (ha : a.Sound ty) (h : a.Shuffle b) : b.Sound ty :=
  ⟨(h.items.map _).nodup_iff.2 ha.keys, fun p hp => ha.typed p (h.items.mem_iff.1 hp)⟩

theorem Sound.list {a : EFrame} (ha : a.Sound ty) {t : TypeIdx} {l : List ItemId} (h : a.items.get t = some l) : ∀ i ∈ l, ty i = t :=
  ha.typed _ (AMap.mem_of_get h)

theorem Sound.setList {a : EFrame} (ha : a.Sound ty) {t : TypeIdx} {l : List ItemId} (hl : ∀ i ∈ l, ty i = t) : (a.setList t l).Sound ty := by
  refine ⟨AMap.nodup_keys_set ha.keys t l, ?_⟩
  intro p hp i hi
  rcases EFrame.mem_set hp with h | h
  · exact ha.typed p h i hi
  · subst h; exact hl i hi

theorem Sound.push {a : EFrame} (ha : a.Sound ty) (i : ItemId) : (a.push (ty i) i).Sound ty := by
  apply ha.setList
  intro j hj
  rcases List.mem_append.1 hj with h | h
  · cases hg : a.items.get (ty i) with
    | none => rw [hg] at h; cases h
    | some l => rw [hg] at h; exact ha.list hg j h
  · rw [List.mem_singleton.1 h]

theorem Sound.eraseType {a : EFrame} (ha : a.Sound ty) (t : TypeIdx) : (a.eraseType t).Sound ty :=
  ⟨AMap.nodup_keys_erase ha.keys t, fun p hp => ha.typed p (List.mem_of_mem_filter hp)⟩

theorem Shuffle.setList {a b : EFrame} (h : a.Shuffle b) (ha : a.Sound ty) {t : TypeIdx} {l : List ItemId} :
    (a.setList t l).Shuffle (b.setList t l) := by
  refine ⟨h.id, AMap.perm_of_get (AMap.nodup_keys_set ha.keys t l) (AMap.nodup_keys_set (ha.of_shuffle h).keys t l) ?_⟩
  intro k
  simp only [EFrame.setList]
  rw [AMap.get_set, AMap.get_set, h.get ha]

theorem Shuffle.push {a b : EFrame} (h : a.Shuffle b) (ha : a.Sound ty) (t : TypeIdx) (i : ItemId) : (a.push t i).Shuffle (b.push t i) := by
  have := h.setList ha (t := t) (l := (a.items.get t).getD [] ++ [i])
  unfold EFrame.push
  rw [h.get ha]
  exact this

theorem Shuffle.eraseType {a b : EFrame} (h : a.Shuffle b) (t : TypeIdx) : (a.eraseType t).Shuffle (b.eraseType t) :=
  ⟨h.id, h.items.filter _⟩

end EFrame

/-- two shuffled frames -/
structure Twin (ty : ItemId → TypeIdx) where
  a : EFrame
  b : EFrame
  shuffle : a.Shuffle b
  sound : a.Sound ty

namespace Twin

theorem ext' {p q : Twin ty} (h1 : p.a = q.a) (h2 : p.b = q.b) : p = q := by
  cases p; cases q; cases h1; cases h2; rfl

instance : FrameProp (Twin ty) where
  dflt := ⟨FrameProp.dflt, FrameProp.dflt, .refl _, ⟨List.nodup_nil, fun p hp => absurd hp List.not_mem_nil⟩⟩
  setId f p := ⟨FrameProp.setId f p.a, FrameProp.setId f p.b, ⟨rfl, p.shuffle.items⟩, ⟨p.sound.keys, p.sound.typed⟩⟩
  getId p := p.a.id
  getId_setId _ _ := rfl

def left : PropMap (Twin ty) EFrame E E where
  frame p := p.a
  edge := id
  getId _ := rfl
  setId _ _ := rfl
  dflt _ := rfl
  inverse _ := rfl

def right : PropMap (Twin ty) EFrame E E where
  frame p := p.b
  edge := id
  getId p := p.shuffle.id
  setId _ _ := rfl
  dflt _ := rfl
  inverse _ := rfl

def setList (t : TypeIdx) (l : List ItemId) (hl : ∀ i ∈ l, ty i = t) (p : Twin ty) : Twin ty :=
  ⟨p.a.setList t l, p.b.setList t l, p.shuffle.setList p.sound, p.sound.setList hl⟩

def push (i : ItemId) (p : Twin ty) : Twin ty :=
  ⟨p.a.push (ty i) i, p.b.push (ty i) i, p.shuffle.push p.sound _ _, p.sound.push i⟩

def eraseType (t : TypeIdx) (p : Twin ty) : Twin ty := ⟨p.a.eraseType t, p.b.eraseType t, p.shuffle.eraseType t, p.sound.eraseType t⟩

def wipe (p : Twin ty) : Twin ty :=
  ⟨EG.wipe p.a, EG.wipe p.b, ⟨p.shuffle.id, .refl _⟩, ⟨List.nodup_nil, fun q hq => absurd hq List.not_mem_nil⟩⟩

end Twin

variable {F F' : Type} [FrameProp F] [FrameProp F']

theorem G.modV_trans (m : PropMap F F' E E) (g : G F E) (v : VId) {h : F → F} {h' : F' → F'} (hh : ∀ p, m.frame (h p) = h' (m.frame p)) :
    (g.trans m).modV v h' = (g.modV v h).trans m := by
  simp only [G.modV, G.trans, List.map_map]
  congr 1
  apply List.map_congr_left
  intro r _
  simp only [Function.comp]
  split <;> simp [hh]

theorem WF.trans {g : G F E} (h : WF g) (m : PropMap F F' E E) : WF (g.trans m) := by
  have hv : ∀ r : VRec F, r ∈ g.verts → VRec.trans m r ∈ (g.trans m).verts := fun r hr => List.mem_map_of_mem hr
  refine ⟨?_, ?_, ?_, ?_, h.lnodup, ?_, ?_, ?_, ?_, ?_⟩
  · simpa [G.trans, Function.comp_def] using h.vnodup
  · intro r hr
    obtain ⟨q, hq, rfl⟩ := List.mem_map.1 hr
    exact h.vlt q hq
  · simpa [G.trans, Function.comp_def] using h.inodup
  · intro r hr
    obtain ⟨q, hq, rfl⟩ := List.mem_map.1 hr
    exact h.ilt q hq
  · intro f v
    refine (h.lab f v).trans ⟨?_, ?_⟩
    · rintro ⟨r, hr, rfl, rfl⟩
      exact ⟨_, hv r hr, rfl, m.getId _⟩
    · rintro ⟨r, hr, rfl, rfl⟩
      obtain ⟨q, hq, rfl⟩ := List.mem_map.1 hr
      exact ⟨q, hq, rfl, (m.getId _).symm⟩
  · simpa [G.trans, Function.comp_def] using h.enodup
  · intro e he
    obtain ⟨q, hq, rfl⟩ := List.mem_map.1 he
    exact h.elt q hq
  · intro e he
    obtain ⟨q, hq, rfl⟩ := List.mem_map.1 he
    obtain ⟨r, hr, h1⟩ := h.esrc q hq
    exact ⟨_, hv r hr, h1⟩
  · intro e he
    obtain ⟨q, hq, rfl⟩ := List.mem_map.1 he
    obtain ⟨r, hr, h1⟩ := h.etgt q hq
    exact ⟨_, hv r hr, h1⟩

namespace EventsAlike

theorem refl : ∀ l : List Event, EventsAlike ty l l
  | [] => .nil
  | e :: l => .cons e (refl l)

theorem symm {l l' : List Event} (h : EventsAlike ty l l') : EventsAlike ty l' l := by
  induction h with
  | nil => exact .nil
  | cons e _ ih => exact .cons e ih
  | added f l h => exact .added f l (Ne.symm h)
  | removed f l h => exact .removed f l (Ne.symm h)
  | trans _ _ ih1 ih2 => exact .trans ih2 ih1

theorem append_right {l l' : List Event} (h : EventsAlike ty l l') (k : List Event) : EventsAlike ty (l ++ k) (l' ++ k) := by
  induction h with
  | nil => exact refl k
  | cons e _ ih => exact .cons e ih
  | added f l h => exact .added f (l ++ k) h
  | removed f l h => exact .removed f (l ++ k) h
  | trans _ _ ih1 ih2 => exact .trans ih1 ih2

theorem append_left {l l' : List Event} (k : List Event) (h : EventsAlike ty l l') : EventsAlike ty (k ++ l) (k ++ l') := by
  induction k with
  | nil => exact h
  | cons e k ih => exact .cons e ih

theorem append {a a' b b' : List Event} (h : EventsAlike ty a a') (k : EventsAlike ty b b') : EventsAlike ty (a ++ b) (a' ++ b') :=
  .trans (h.append_right b) (k.append_left a')

/-- the two kinds of events that may change places -/
def Swappable (ty : ItemId → TypeIdx) (ev : ItemId → Event) : Prop :=
  ∀ (i j : ItemId) (l : List Event), ty i ≠ ty j → EventsAlike ty (ev i :: ev j :: l) (ev j :: ev i :: l)

theorem swap_one {ev : ItemId → Event} (hs : Swappable ty ev) (i : ItemId) (k : List ItemId) (hk : ∀ j ∈ k, ty i ≠ ty j) (l : List Event) :
    EventsAlike ty (ev i :: (k.map ev ++ l)) (k.map ev ++ ev i :: l) := by
  induction k with
  | nil => exact refl _
  | cons j k ih =>
    exact .trans (hs i j _ (hk j (by simp))) (.cons _ (ih fun x hx => hk x (by simp [hx])))

theorem swap_lists {ev : ItemId → Event} (hs : Swappable ty ev) (h k : List ItemId) (hk : ∀ i ∈ h, ∀ j ∈ k, ty i ≠ ty j) (l : List Event) :
    EventsAlike ty (h.map ev ++ (k.map ev ++ l)) (k.map ev ++ (h.map ev ++ l)) := by
  induction h with
  | nil => exact refl _
  | cons i h ih =>
    exact .trans (.cons _ (ih fun x hx => hk x (by simp [hx]))) (swap_one hs i k (hk i (by simp)) _)

theorem of_perm {ev : ItemId → Event} (hs : Swappable ty ev) {m m' : AMap TypeIdx (List ItemId)} (hp : m'.Perm m)
    (hk : (AMap.keys m).Nodup) (ht : ∀ p ∈ m, ∀ i ∈ p.2, ty i = p.1) :
    EventsAlike ty ((m'.flatMap (fun p => p.2)).map ev) ((m.flatMap (fun p => p.2)).map ev) := by
  induction hp with
  | nil => exact .nil
  | cons p _ ih =>
    simp only [List.flatMap_cons, List.map_append]
    apply append_left
    exact ih (List.nodup_cons.1 hk).2 fun q hq => ht q (by simp [hq])
  | swap p q l =>
    simp only [List.flatMap_cons, List.map_append]
    apply swap_lists hs
    intro i hi j hj
    rw [ht q (by simp) i hi, ht p (by simp) j hj]
    intro h
    simp [AMap.keys, h] at hk
  | trans h1 h2 ih1 ih2 =>
    refine .trans (ih1 ((h2.map _).nodup_iff.2 hk) fun q hq => ht q (h2.mem_iff.1 hq)) (ih2 hk ht)

theorem visit {ev : ItemId → Event} (hs : Swappable ty ev) (p : Twin ty) :
    EventsAlike ty (p.a.visit.map ev) (p.b.visit.map ev) :=
  (of_perm hs p.shuffle.items p.sound.keys p.sound.typed).symm

end EventsAlike
end Verif
