import Verif.Model.DrawGeneric
import Verif.Spec.DrawGeneric
import Verif.Lemmas.Drawing
/-! # Reading drawings of graphs with other classes -/

namespace Verif
namespace Draw
variable {F E : Type}

theorem inner_append (l : List Char) : inner (l ++ ['}', '}']) = some l := by
  induction l with
  | nil => rfl
  | cons c l ih =>
    have h : inner (c :: (l ++ ['}', '}'])) = (inner (l ++ ['}', '}'])).map (c :: ·) := by
      rw [inner]
      intro h1 h2
      have := congrArg List.length h2
      simp at this
    rw [List.cons_append, h, ih]; rfl

theorem box_assoc {Q S b d : List Char} (h2 : Q = ['}', '"']) (h3 : S = b ++ d) (A n rest : List Char) :
    (A ++ n ++ ['}'] ++ Q ++ b) ++ d ++ rest = A ++ ((n ++ ['}', '}']) ++ '"' :: (S ++ rest)) := by subst h2 h3; simp

theorem box_head {A a : List Char} (h : A = '[' :: a) (n c b d rest : List Char) :
    ∃ x, (A ++ n ++ ['}'] ++ c ++ b) ++ d ++ rest = '[' :: x := by
  subst h; simp only [List.cons_append]; exact ⟨_, rfl⟩

theorem readBox_eq {frameText : F → List Char} (r : VRec F) (hn : '"' ∉ frameText r.prop) (rest : List Char) :
    readBox r.idx (genericText frameText r.prop ++ ";\n".toList ++ rest) = some (⟨r.idx, frameText r.prop⟩, rest) := by
  have e : genericText frameText r.prop ++ ";\n".toList ++ rest = "[shape=record, label=\"{{".toList ++
      ((frameText r.prop ++ ['}', '}']) ++ '"' :: (",style=filled,fillcolor=lightblue];\n".toList ++ rest)) :=
    box_assoc lit_close lit_style _ _ _
  have hq : '"' ∉ frameText r.prop ++ ['}', '}'] := by
    simp only [List.mem_append, not_or]
    exact ⟨hn, by decide⟩
  rw [e, readBox, lit_append]
  simp only [Option.bind_some]
  rw [upTo_append hq]
  simp only [Option.bind_some, inner_append, lit_append, Option.map_some]

theorem readBox_arrow (n : Nat) (s : List Char) : readBox n ("->".toList ++ s) = none := by
  unfold readBox
  rw [lit_arrow, lit_record']
  generalize "shape=record, label=\"{{".toList = a
  rw [List.cons_append, lit, if_neg (by decide)]
  rfl

theorem readArrow_line {edgeText : E → List Char} (g : G F E) (e : ERec E) (he : '"' ∉ edgeText e.prop) (rest : List Char) :
    readArrow (indexIn g e.src) ("->".toList ++ dec (indexIn g e.tgt) ++ [' '] ++ edgeLabel edgeText e.prop ++ ";\n".toList ++ rest) =
      some (⟨indexIn g e.src, indexIn g e.tgt, edgeText e.prop⟩, rest) := by
  have e1 : "->".toList ++ dec (indexIn g e.tgt) ++ [' '] ++ edgeLabel edgeText e.prop ++ ";\n".toList ++ rest =
      "->".toList ++ (dec (indexIn g e.tgt) ++ ' ' :: ("[label=\"".toList ++ (edgeText e.prop ++ '"' ::
        (",shape=ellipse,color=red,style=filled,fillcolor=lightcoral];\n".toList ++ rest)))) := by
    exact arrow_assoc lit_quote lit_ellipse _ _ _ _ _
  rw [e1, readArrow, lit_append]
  simp only [Option.bind_some]
  rw [digits_append (dec_isDigit _) (by decide)]
  have e4 : ∀ x : List Char, ' ' :: ("[label=\"".toList ++ x) = " [label=\"".toList ++ x := by
    intro x
    have : " [label=\"".toList = ' ' :: "[label=\"".toList := by decide
    rw [this]; rfl
  simp only [e4, lit_append, Option.bind_some, upTo_append he, Option.map_some, number_dec]

private theorem dec_ne {n : Nat} {s rest : List Char} (hd : digits s = (dec n, rest)) : s ≠ "}\n".toList := by
  intro hh
  have h3 := congrArg digits hh
  rw [hd] at h3
  have h4 := congrArg Prod.fst h3
  have h5 : dec n = [] := by rw [show dec n = (digits "}\n".toList).1 from h4]; decide
  rw [dec] at h5
  split at h5 <;> simp at h5

theorem readBoxes_edges {edgeText : E → List Char} (g : G F E) (es : List (ERec E)) (he : ∀ e ∈ es, '"' ∉ edgeText e.prop) :
    ∀ n, es.length < n → readBoxes n (es.flatMap (genericArrow edgeText g) ++ "}\n".toList) =
      some ([], es.map fun e => ⟨indexIn g e.src, indexIn g e.tgt, edgeText e.prop⟩) := by
  induction es with
  | nil =>
    intro n hn
    obtain ⟨k, rfl⟩ : ∃ k, n = k + 1 := ⟨n - 1, by simp at hn; omega⟩
    simp [readBoxes]
  | cons e es ih =>
    intro n hn
    obtain ⟨k, rfl⟩ : ∃ k, n = k + 1 := ⟨n - 1, by simp at hn; omega⟩
    have e1 : (e :: es).flatMap (genericArrow edgeText g) ++ "}\n".toList = dec (indexIn g e.src) ++ ("->".toList ++ dec (indexIn g e.tgt) ++ [' '] ++
        edgeLabel edgeText e.prop ++ ";\n".toList ++ (es.flatMap (genericArrow edgeText g) ++ "}\n".toList)) := by
      simp [genericArrow, List.append_assoc]
    have e2 : "->".toList = '-' :: ['>'] := by decide
    generalize hrest : (es.flatMap (genericArrow edgeText g) ++ "}\n".toList) = rest at e1 ih
    have hd : digits (dec (indexIn g e.src) ++ ("->".toList ++ dec (indexIn g e.tgt) ++ [' '] ++
        edgeLabel edgeText e.prop ++ ";\n".toList ++ rest)) = (dec (indexIn g e.src), "->".toList ++ dec (indexIn g e.tgt) ++ [' '] ++
        edgeLabel edgeText e.prop ++ ";\n".toList ++ rest) := by
      rw [e2]; exact digits_append (dec_isDigit _) (by decide) _
    rw [e1, readBoxes, if_neg (dec_ne hd), hd]
    simp only [number_dec]
    rw [readArrow_line g e (he e (by simp))]
    have : readBox (indexIn g e.src) ("->".toList ++ dec (indexIn g e.tgt) ++ [' '] ++
      edgeLabel edgeText e.prop ++ ";\n".toList ++ rest) = none := by simp only [List.append_assoc]; exact readBox_arrow _ _
    rw [this]
    simp only
    rw [ih (fun e' he' => he e' (by simp [he'])) k (by simpa using hn)]
    rfl

theorem readBoxes_eq {frameText : F → List Char} {edgeText : E → List Char} (g : G F E) (rs : List (VRec F))
    (hr : ∀ r ∈ rs, '"' ∉ frameText r.prop) (es : List (ERec E)) (he : ∀ e ∈ es, '"' ∉ edgeText e.prop) :
    ∀ n, rs.length + es.length < n →
      readBoxes n (rs.flatMap (genericLine frameText) ++ (es.flatMap (genericArrow edgeText g) ++ "}\n".toList)) =
        some (rs.map (fun r => ⟨r.idx, frameText r.prop⟩), es.map fun e => ⟨indexIn g e.src, indexIn g e.tgt, edgeText e.prop⟩) := by
  induction rs with
  | nil => intro n hn; exact readBoxes_edges g es he n (by simpa using hn)
  | cons r rs ih =>
    intro n hn
    obtain ⟨k, rfl⟩ : ∃ k, n = k + 1 := ⟨n - 1, by simp at hn; omega⟩
    generalize es.flatMap (genericArrow edgeText g) ++ "}\n".toList = tail at ih
    have e1 : (r :: rs).flatMap (genericLine frameText) ++ tail = dec r.idx ++ (genericText frameText r.prop ++ ";\n".toList ++
        (rs.flatMap (genericLine frameText) ++ tail)) := by
      simp [genericLine, List.append_assoc]
    have e2 : ∃ x, genericText frameText r.prop ++ ";\n".toList ++ (rs.flatMap (genericLine frameText) ++ tail) = '[' :: x :=
      box_head lit_record' _ _ _ _ _
    have hd : digits (dec r.idx ++ (genericText frameText r.prop ++ ";\n".toList ++ (rs.flatMap (genericLine frameText) ++ tail))) =
        (dec r.idx, genericText frameText r.prop ++ ";\n".toList ++ (rs.flatMap (genericLine frameText) ++ tail)) := by
      obtain ⟨x, hx⟩ := e2
      rw [hx]; exact digits_append (dec_isDigit _) (by decide) _
    rw [e1, readBoxes, if_neg (dec_ne hd), hd]
    simp only [number_dec]
    rw [readBox_eq r (hr r (by simp))]
    simp only
    rw [ih (fun r' hr' => hr r' (by simp [hr'])) k (by simp at hn; omega)]
    rfl

/-- the picture shows the graph -/
theorem readGeneric_draw {frameText : F → List Char} {edgeText : E → List Char} (g : G F E) (hr : ∀ r ∈ g.verts, '"' ∉ frameText r.prop)
    (he : ∀ e ∈ g.edges, '"' ∉ edgeText e.prop) : readGeneric (drawGeneric frameText edgeText g) =
      some (g.verts.map (fun r => ⟨r.idx, frameText r.prop⟩), g.edges.map fun e => ⟨indexIn g e.src, indexIn g e.tgt, edgeText e.prop⟩) := by
  unfold readGeneric drawGeneric
  simp only [List.append_assoc]
  rw [lit_append]
  simp only [Option.bind_some]
  apply readBoxes_eq g g.verts hr g.edges he
  have h1 := flatMap_length g.verts (genericLine frameText) (fun x _ => by simp [genericLine]; omega)
  have h2 := flatMap_length g.edges (genericArrow edgeText g) (fun x _ => by simp [genericArrow]; omega)
  have h3 : ("}\n".toList).length = 2 := by decide
  simp only [List.length_append, h3]; omega

end Draw
end Verif
