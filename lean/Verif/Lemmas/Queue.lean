import Verif.Model.Queue
import Verif.Spec.Queue
import Verif.Lemmas.Mirror
/-! # Lemmas about the event queue -/

set_option linter.unusedSimpArgs false

namespace Verif
namespace Queue

theorem scan_eq (e : Event) (l : List Event) (s : Bool) :
    scan e l s = (l.filter (fun x => !x.mergeable e), s || l.any (fun x => x.mergeable e && x.cancels e)) := by
  induction l generalizing s with
  | nil => simp [scan]
  | cons x l ih =>
    unfold scan
    by_cases h : x.mergeable e
    · rw [if_pos h, ih]; by_cases hc : x.cancels e <;> simp [h, hc]
    · rw [if_neg h, ih]; simp [h]

theorem insert_eq (e : Event) (l : List Event) :
    insert e l = if l.any (fun x => x.mergeable e && x.cancels e) then l.filter (fun x => !x.mergeable e)
      else l.filter (fun x => !x.mergeable e) ++ [e] := by
  unfold insert; rw [scan_eq]; simp

/-- the list after the events -/
def queued (l : List Event) (es : List Event) : List Event := es.foldl (fun l e => insert e l) l

@[simp] theorem queued_nil (l : List Event) : queued l [] = l := rfl
theorem queued_snoc (l es : List Event) (e : Event) : queued l (es ++ [e]) = insert e (queued l es) := by simp [queued]
theorem queued_append (l es es' : List Event) : queued l (es ++ es') = queued (queued l es) es' := by simp [queued]

/-- how a projection of the events to tags is changed by `insert` -/
theorem proj_insert {τ : Type} (g : Event → Option τ) (mrg cnc : τ → τ → Bool)
    (h1 : ∀ x e u t, g x = some u → g e = some t → x.mergeable e = mrg u t ∧ x.cancels e = cnc u t)
    (h2 : ∀ x e, x.mergeable e = true → (g x).isSome = (g e).isSome) (e : Event) (l : List Event) :
    (insert e l).filterMap g = match g e with
      | none => l.filterMap g
      | some t => if (l.filterMap g).any (fun u => mrg u t && cnc u t) then (l.filterMap g).filter (fun u => !mrg u t)
          else (l.filterMap g).filter (fun u => !mrg u t) ++ [t] := by
  have hf : (l.filter (fun x => !x.mergeable e)).filterMap g = match g e with
      | none => l.filterMap g
      | some t => (l.filterMap g).filter (fun u => !mrg u t) := by
    induction l with
    | nil => cases g e <;> simp
    | cons x l ih =>
      cases he : g e with
      | none =>
        simp only [he] at ih
        cases hx : g x with
        | none => by_cases hm : x.mergeable e <;> simp [hm, hx, ih, List.filterMap_cons]
        | some u =>
          have hm : ¬ x.mergeable e := by intro hm; have := h2 x e hm; simp [hx, he] at this
          simp [hm, hx, ih, List.filterMap_cons]
      | some t =>
        simp only [he] at ih
        cases hx : g x with
        | none =>
          have hm : ¬ x.mergeable e := by intro hm; have := h2 x e hm; simp [hx, he] at this
          simp [hm, hx, ih, List.filterMap_cons]
        | some u =>
          have hm := (h1 x e u t hx he).1
          by_cases hm' : mrg u t <;> simp [hm, hm', hx, ih, List.filterMap_cons]
  have ha : ∀ t, g e = some t → l.any (fun x => x.mergeable e && x.cancels e) = (l.filterMap g).any (fun u => mrg u t && cnc u t) := by
    intro t he
    clear hf
    induction l with
    | nil => rfl
    | cons x l ih =>
      cases hx : g x with
      | none =>
        have hm : ¬ x.mergeable e := by intro hm; have := h2 x e hm; simp [hx, he] at this
        simp [hm, hx, ih, List.filterMap_cons]
      | some u =>
        have hm := h1 x e u t hx he
        simp [hm.1, hm.2, hx, ih, List.filterMap_cons]
  rw [insert_eq]
  cases he : g e with
  | none =>
    simp only [he] at hf
    split <;> simp [hf, he]
  | some t =>
    simp only [he] at hf
    rw [ha t he]
    simp only
    split
    · rw [hf]
    · rw [List.filterMap_append, hf]; simp [he]

/-! ## frames -/

/-- announcements (`true`) and removals (`false`) of `f` -/
def ftag (f : FrameId) : Event → Option Bool
  | .frameAdded g => if g = f then some true else none
  | .frameRemoved g => if g = f then some false else none
  | _ => none

theorem ftags_insert (f : FrameId) (e : Event) (l : List Event) :
    (insert e l).filterMap (ftag f) = match ftag f e with
      | none => l.filterMap (ftag f)
      | some true => l.filterMap (ftag f) ++ [true]
      | some false => if true ∈ l.filterMap (ftag f) then (l.filterMap (ftag f)).filter (fun u => !u) else l.filterMap (ftag f) ++ [false] := by
  rw [proj_insert (ftag f) (fun u t => u && !t) (fun u t => u && !t)]
  · cases he : ftag f e with
    | none => rfl
    | some t =>
      cases t
      · simp only [Bool.not_false, Bool.and_true, Bool.and_self]
        by_cases h : true ∈ l.filterMap (ftag f)
        · rw [if_pos h, if_pos (List.any_eq_true.2 ⟨true, h, rfl⟩)]
        · have : ∀ u ∈ l.filterMap (ftag f), u = false := by
            intro u hu; cases u; rfl; exact absurd hu h
          rw [if_neg h, if_neg]
          · congr 1
            rw [List.filter_eq_self]
            intro u hu; simp [this u hu]
          · rw [List.any_eq_true]; rintro ⟨u, hu, rfl⟩; exact h hu
      · generalize l.filterMap (ftag f) = L
        simp
  · intro x e u t hx he
    cases x <;> simp [ftag] at hx
    all_goals cases e <;> simp [ftag] at he
    all_goals obtain ⟨rfl, rfl⟩ := hx; obtain ⟨h', rfl⟩ := he
    all_goals simp [Event.mergeable, Event.cancels, h']
  · intro x e hm
    cases x <;> cases e <;> simp [Event.mergeable, ftag] at hm ⊢
    subst hm; split <;> rfl

theorem frameAfter_eq (f : FrameId) (b : Bool) (l : List Event) :
    frameAfter f b l = ((l.filterMap (ftag f)).getLast?).getD b := by
  induction l generalizing b with
  | nil => rfl
  | cons e l ih =>
    cases e with
    | frameAdded g =>
      simp only [frameAfter, ih, List.filterMap_cons, ftag]
      split
      · rename_i h
        simp only [h, if_true, List.getLast?_cons]
        cases (l.filterMap (ftag f)).getLast? <;> rfl
      · rename_i h; simp [h]
    | frameRemoved g =>
      simp only [frameAfter, ih, List.filterMap_cons, ftag]
      split
      · rename_i h
        simp only [h, if_true, List.getLast?_cons]
        cases (l.filterMap (ftag f)).getLast? <;> rfl
      · rename_i h; simp [h]
    | _ => simp [frameAfter, ih, List.filterMap_cons, ftag]

theorem frameAfter_append (f : FrameId) (b : Bool) (l l' : List Event) :
    frameAfter f b (l ++ l') = frameAfter f (frameAfter f b l) l' := by
  rw [frameAfter_eq, frameAfter_eq, frameAfter_eq]
  simp [List.getLast?_append]

/-- what is queued about a frame that existed (`b0`) at the last flush and exists now (`b1`) -/
def FShape (b0 b1 : Bool) (l : List Bool) : Prop :=
  match b0, b1 with
  | false, false => l = []
  | false, true => l = [true]
  | true, false => l = [false]
  | true, true => l = [] ∨ l = [false, true]

theorem FShape.after {b0 b1 : Bool} {l : List Bool} (h : FShape b0 b1 l) : l.getLast?.getD b0 = b1 := by
  cases b0 <;> cases b1 <;> simp only [FShape] at h
  · simp [h]
  · simp [h]
  · simp [h]
  · rcases h with rfl | rfl <;> rfl

/-- the observer accepts the events about `f` only alternately -/
def faccept (f : FrameId) (b : Bool) (e : Event) : Prop := ∀ t, ftag f e = some t → t = !b

theorem FShape.insert {f : FrameId} {b0 b1 : Bool} {l : List Event} (h : FShape b0 b1 (l.filterMap (ftag f))) {e : Event}
    (he : faccept f b1 e) : FShape b0 (frameAfter f b1 [e]) ((Queue.insert e l).filterMap (ftag f)) := by
  rw [ftags_insert, frameAfter_eq]
  cases ht : ftag f e with
  | none => simpa [ht] using h
  | some t =>
    have hb := he t ht
    subst hb
    cases b1
    · cases b0 <;> simp only [FShape] at h <;> simp [h, ht, FShape]
    · cases b0 <;> simp only [FShape] at h
      · simp [h, ht, FShape]
      · rcases h with h | h <;> simp [h, ht, FShape]

theorem apply_frame {m m' : Mirror} {e : Event} (h : m.apply e = some m') (f : FrameId) :
    faccept f (decide (f ∈ m.frames)) e ∧ frameAfter f (decide (f ∈ m.frames)) [e] = decide (f ∈ m'.frames) := by
  cases e <;> simp only [Mirror.apply] at h
  case frameAdded g =>
    split at h
    · simp at h
    · rename_i hg
      obtain rfl := Option.some.inj h
      constructor
      · intro t ht; simp only [ftag] at ht
        split at ht
        · rename_i hgf; subst hgf; simp at ht; subst ht; simp [hg]
        · simp at ht
      · simp only [frameAfter]
        by_cases hgf : g = f
        · simp [hgf]
        · simp [hgf, Ne.symm hgf]
  case frameRemoved g =>
    split at h
    · rename_i hg
      obtain rfl := Option.some.inj h
      constructor
      · intro t ht; simp only [ftag] at ht
        split at ht
        · rename_i hgf; subst hgf; simp at ht; subst ht; simp [hg.1]
        · simp at ht
      · simp only [frameAfter]
        by_cases hgf : g = f
        · simp [hgf]
        · simp [hgf, Ne.symm hgf]
    · simp at h
  all_goals
    have hm : m'.frames = m.frames := by
      first
      | (split at h <;> first | (obtain rfl := Option.some.inj h; rfl) | simp at h)
      | (obtain rfl := Option.some.inj h; rfl)
    exact ⟨by intro t ht; simp [ftag] at ht, by simp [frameAfter, hm]⟩

/-! ## connections -/

/-- kinds of edge events -/
inductive Tag | added | modified | removed
  deriving DecidableEq

/-- kind of an event about the connection of `a` and `b` -/
def ctag (a b : FrameId) : Event → Option Tag
  | .edgeAdded o t _ => if isConn a b o t then some .added else none
  | .edgeModified o t _ _ => if isConn a b o t then some .modified else none
  | .edgeRemoved o t => if isConn a b o t then some .removed else none
  | _ => none

theorem sameEdge_iff {o t o' t' : FrameId} : sameEdge o t o' t' = true ↔ isConn o t o' t' := by
  simp only [sameEdge, isConn, Bool.or_eq_true, Bool.and_eq_true, beq_iff_eq]
  constructor <;> rintro (⟨rfl, rfl⟩ | ⟨rfl, rfl⟩) <;> simp

theorem isConn_of_same {a b o t o' t' : FrameId} (h : isConn o t o' t') : isConn a b o t ↔ isConn a b o' t' := by
  simp only [isConn] at *
  rcases h with ⟨rfl, rfl⟩ | ⟨rfl, rfl⟩
  · rfl
  · tauto

theorem same_of_isConn {a b o t o' t' : FrameId} (h : isConn a b o t) (h' : isConn a b o' t') : isConn o t o' t' := by
  simp only [isConn] at *
  rcases h with ⟨rfl, rfl⟩ | ⟨rfl, rfl⟩ <;> rcases h' with ⟨rfl, rfl⟩ | ⟨rfl, rfl⟩ <;> simp

/-- `mergeable` on kinds -/
def Tag.merges : Tag → Tag → Bool
  | .modified, .modified => true
  | _, .removed => true
  | _, _ => false

/-- `cancels` on kinds -/
def Tag.cancels : Tag → Tag → Bool
  | .added, .removed => true
  | _, _ => false

theorem ctags_insert (a b : FrameId) (e : Event) (l : List Event) :
    (Queue.insert e l).filterMap (ctag a b) = match ctag a b e with
      | none => l.filterMap (ctag a b)
      | some .added => l.filterMap (ctag a b) ++ [.added]
      | some .modified => (l.filterMap (ctag a b)).filter (fun u => !decide (u = .modified)) ++ [.modified]
      | some .removed => if .added ∈ l.filterMap (ctag a b) then [] else [.removed] := by
  rw [proj_insert (ctag a b) Tag.merges Tag.cancels]
  · cases he : ctag a b e with
    | none => rfl
    | some t =>
      cases t
      · simp only
        have h1 : ∀ u : Tag, Tag.merges u .added = false := by intro u; cases u <;> rfl
        generalize l.filterMap (ctag a b) = L
        simp [h1]
      · simp only
        have h1 : ∀ u : Tag, (Tag.merges u .modified) = decide (u = .modified) := by intro u; cases u <;> rfl
        have h2 : ∀ u : Tag, Tag.cancels u .modified = false := by intro u; cases u <;> rfl
        generalize l.filterMap (ctag a b) = L
        simp [h1, h2]
      · simp only
        have h1 : ∀ u : Tag, (Tag.merges u .removed) = true := by intro u; cases u <;> rfl
        have h2 : ∀ u : Tag, Tag.cancels u .removed = decide (u = .added) := by intro u; cases u <;> rfl
        by_cases h : Tag.added ∈ l.filterMap (ctag a b)
        · rw [if_pos h, if_pos]
          · simp [h1]
          · simp only [h1, h2, Bool.true_and, List.any_eq_true, decide_eq_true_eq]; exact ⟨_, h, rfl⟩
        · rw [if_neg h, if_neg]
          · simp [h1]
          · simp only [h1, h2, Bool.true_and, List.any_eq_true, decide_eq_true_eq]; rintro ⟨u, hu, rfl⟩; exact h hu
  · intro x e u t hx he
    cases x <;> simp [ctag] at hx
    all_goals cases e <;> simp [ctag] at he
    all_goals obtain ⟨hx, rfl⟩ := hx; obtain ⟨h', rfl⟩ := he
    all_goals simp [Event.mergeable, Event.cancels, Tag.merges, Tag.cancels, sameEdge_iff, same_of_isConn hx h']
  · intro x e hm
    cases x <;> cases e <;> simp only [Event.mergeable, Bool.false_eq_true] at hm
    all_goals first
      | (have hc := isConn_of_same (a := a) (b := b) (sameEdge_iff.1 hm)
         simp only [ctag]
         split <;> split <;> first | rfl | (exfalso; tauto))
      | rfl

end Queue
end Verif
