import Verif.Spec.Drawing
import Verif.Props.C57
import Verif.Lemmas.Items
set_option linter.unusedSectionVars false
/-! # Reading drawings -/

namespace Verif
namespace Draw
variable {E : Type}

theorem lit_append (p r : List Char) : lit p (p ++ r) = some r := by
  induction p with
  | nil => cases r <;> rfl
  | cons c p ih => simp [lit, ih]

theorem upTo_append {c : Char} {l : List Char} (h : c ∉ l) (r : List Char) : upTo c (l ++ c :: r) = some (l, r) := by
  induction l with
  | nil => simp [upTo]
  | cons d l ih =>
    have h1 : d ≠ c := by rintro rfl; exact h (by simp)
    simp [upTo, h1, ih (fun hh => h (by simp [hh]))]

theorem digits_append {l : List Char} (h : ∀ c ∈ l, c.isDigit = true) {c : Char} (hc : c.isDigit = false) (r : List Char) :
    digits (l ++ c :: r) = (l, c :: r) := by
  induction l with
  | nil => simp [digits, hc]
  | cons d l ih => simp [digits, h d (by simp), ih (fun x hx => h x (by simp [hx]))]

theorem digit_isDigit (n : Nat) : (digit n).isDigit = true := by
  have h : n % 10 < 10 := Nat.mod_lt _ (by omega)
  unfold digit
  generalize n % 10 = k at h
  match k, h with
  | 0, _ | 1, _ | 2, _ | 3, _ | 4, _ | 5, _ | 6, _ | 7, _ | 8, _ | 9, _ => decide

theorem digit_toNat (n : Nat) : (digit n).toNat - 48 = n % 10 := by
  have h : n % 10 < 10 := Nat.mod_lt _ (by omega)
  unfold digit
  generalize n % 10 = k at h
  match k, h with
  | 0, _ | 1, _ | 2, _ | 3, _ | 4, _ | 5, _ | 6, _ | 7, _ | 8, _ | 9, _ => decide

theorem dec_isDigit (n : Nat) : ∀ c ∈ dec n, c.isDigit = true := by
  induction n using Nat.strongRecOn with
  | ind n ih =>
    intro c hc
    rw [dec] at hc
    split at hc
    · rw [List.mem_singleton.1 hc]; exact digit_isDigit n
    · rcases List.mem_append.1 hc with h | h
      · exact ih (n / 10) (by omega) c h
      · rw [List.mem_singleton.1 h]; exact digit_isDigit n

theorem number_dec (n : Nat) : number (dec n) = n := by
  induction n using Nat.strongRecOn with
  | ind n ih =>
    rw [dec]
    split
    · rename_i h
      simp only [number, List.foldl_cons, List.foldl_nil, digit_toNat]; omega
    · rename_i h
      have := ih (n / 10) (by omega)
      simp only [number] at this ⊢
      rw [List.foldl_append, this]
      simp only [List.foldl_cons, List.foldl_nil, digit_toNat]; omega

theorem not_mem_dec {c : Char} (hc : c.isDigit = false) (n : Nat) : c ∉ dec n := by
  intro h
  rw [dec_isDigit n c h] at hc
  exact absurd hc (by simp)

theorem cellText_plain {l : List Char} (h : ∀ c ∈ l, c ∉ "<>{}|\\\"".toList) : cellText l = some l := by
  induction l with
  | nil => simp [cellText]
  | cons c l ih =>
    have hc := h c (by simp)
    have h1 : c ≠ '\\' := by rintro rfl; exact hc (by decide)
    rw [cellText]
    · rw [if_neg hc, ih (fun x hx => h x (by simp [hx]))]; rfl
    · rintro d s rfl; exact absurd rfl h1

theorem cellText_escape {l : List Char} (h : ∀ c ∈ l, c ∉ "{}|\\\"".toList) : cellText (escapeAngleBraces l) = some l := by
  rw [C57_escape]
  induction l with
  | nil => simp [cellText]
  | cons c l ih =>
    have hc := h c (by simp)
    have ih := ih (fun x hx => h x (by simp [hx]))
    rw [List.flatMap_cons]
    by_cases h2 : c = '<' ∨ c = '>'
    · rw [if_pos h2]
      simp only [List.cons_append, List.nil_append]
      rw [cellText, if_pos (by rcases h2 with rfl | rfl <;> decide), ih]; rfl
    · rw [if_neg h2]
      have h1 : c ≠ '\\' := by rintro rfl; exact hc (by decide)
      simp only [List.cons_append, List.nil_append]
      rw [cellText]
      · rw [if_neg, ih]
        · rfl
        · intro hh
          have : c = '<' ∨ c = '>' ∨ c ∈ "{}|\\\"".toList := by simpa using hh
          rcases this with e | e | e
          · exact h2 (.inl e)
          · exact h2 (.inr e)
          · exact hc e
      · rintro d s rfl; exact absurd rfl h1

theorem mem_escape {c : Char} (hc : c ≠ '\\') {l : List Char} (h : c ∈ escapeAngleBraces l) : c ∈ l := by
  rw [C57_escape] at h
  obtain ⟨d, hd, h2⟩ := List.mem_flatMap.1 h
  split at h2
  · rcases List.mem_cons.1 h2 with h3 | h3
    · exact absurd h3 hc
    · rw [List.mem_singleton.1 h3]; exact hd
  · rw [List.mem_singleton.1 h2]; exact hd

/-- the type names of the frame can be shown -/
def TypesClean (typeName : TypeIdx → List Char) (m : AMap TypeIdx (List ItemId)) : Prop :=
  ∀ p ∈ m, ∀ c ∈ typeName p.1, c ∉ "{}|\\\"".toList

theorem typesText_length (typeName : TypeIdx → List Char) (m : AMap TypeIdx (List ItemId)) : m.length ≤ (typesText typeName m).length := by
  induction m with
  | nil => simp
  | cons p m ih => obtain ⟨t, l⟩ := p; simp only [typesText, List.length_append, List.length_cons, List.length_nil]; omega

theorem readTypes_eq {typeName : TypeIdx → List Char} (m : AMap TypeIdx (List ItemId)) (hm : TypesClean typeName m) :
    ∀ n, m.length < n → readTypes n (typesText typeName m ++ ['}']) = some (m.map fun p => (typeName p.1, p.2.length)) := by
  induction m with
  | nil =>
    intro n hn
    obtain ⟨k, rfl⟩ : ∃ k, n = k + 1 := ⟨n - 1, by omega⟩
    simp [readTypes, typesText]
  | cons p m ih =>
    obtain ⟨t, l⟩ := p
    intro n hn
    obtain ⟨k, rfl⟩ : ∃ k, n = k + 1 := ⟨n - 1, by simp at hn; omega⟩
    have hc := hm (t, l) (by simp)
    have h1 : '|' ∉ escapeAngleBraces (typeName t) := by
      intro hh
      exact hc '|' (mem_escape (by decide) hh) (by decide)
    have e : typesText typeName ((t, l) :: m) ++ ['}'] = "| {".toList ++ (escapeAngleBraces (typeName t) ++ '|' ::
        (dec l.length ++ '}' :: (typesText typeName m ++ ['}']))) := by simp [typesText]
    rw [readTypes, e, if_neg (by intro hh; have := congrArg List.head? hh; simp at this), lit_append]
    simp only [Option.bind_some, upTo_append h1, upTo_append (not_mem_dec (c := '}') (by decide) l.length), cellText_escape hc]
    rw [ih (fun p hp => hm p (by simp [hp])) k (by simpa using hn)]
    simp [number_dec]

/-! the literal texts, cut into parts (separate so that no other proof unfolds them) -/

theorem lit_record : "[shape=record, label=\"{{".toList = "[shape=record, label=\"".toList ++ "{{".toList := by decide +kernel
theorem lit_record' : "[shape=record, label=\"{{".toList = '[' :: "shape=record, label=\"{{".toList := by decide +kernel
theorem lit_record'' : "[shape=record, label=\"".toList = '[' :: "shape=record, label=\"".toList := by decide +kernel
theorem lit_close : "}\"".toList = ['}', '"'] := by decide +kernel
theorem lit_quote : "\"".toList = ['"'] := by decide +kernel
theorem lit_style : ",style=filled,fillcolor=lightblue];\n".toList = ",style=filled,fillcolor=lightblue]".toList ++ ";\n".toList := by decide +kernel
theorem lit_ellipse : ",shape=ellipse,color=red,style=filled,fillcolor=lightcoral];\n".toList =
    ",shape=ellipse,color=red,style=filled,fillcolor=lightcoral]".toList ++ ";\n".toList := by decide +kernel
theorem lit_arrow : "->".toList = '-' :: ['>'] := by decide +kernel

theorem frame_assoc {A Q S a c b d : List Char} (h1 : A = a ++ c) (h2 : Q = ['}', '"']) (h3 : S = b ++ d) (n m t rest : List Char) :
    (A ++ n ++ ['|'] ++ m ++ ['}'] ++ t ++ Q ++ b) ++ d ++ rest =
      a ++ ((c ++ (n ++ '|' :: (m ++ '}' :: (t ++ ['}'])))) ++ '"' :: (S ++ rest)) := by subst h1 h2 h3; simp

theorem arrow_assoc {Q S c d : List Char} (h2 : Q = ['"']) (h3 : S = c ++ d) (a n b t rest : List Char) :
    a ++ n ++ [' '] ++ (b ++ t ++ Q ++ c) ++ d ++ rest = a ++ (n ++ ' ' :: (b ++ (t ++ '"' :: (S ++ rest)))) := by subst h2 h3; simp

theorem frame_head {A a : List Char} (h : A = '[' :: a) (n m t c b d rest : List Char) :
    ∃ x, (A ++ n ++ ['|'] ++ m ++ ['}'] ++ t ++ c ++ b) ++ d ++ rest = '[' :: x := by
  subst h; simp only [List.cons_append]; exact ⟨_, rfl⟩

/-- a frame as it should be shown -/
def shownOf (typeName : TypeIdx → List Char) (r : VRec EFrame) : Shown :=
  ⟨r.idx, r.prop.id.toList, r.prop.totalItemCount, r.prop.items.map fun p => (typeName p.1, p.2.length)⟩

theorem quote_typesText {typeName : TypeIdx → List Char} {m : AMap TypeIdx (List ItemId)} (hm : TypesClean typeName m) :
    '"' ∉ typesText typeName m := by
  induction m with
  | nil => simp [typesText]
  | cons p m ih =>
    obtain ⟨t, l⟩ := p
    have ih := ih (fun p hp => hm p (by simp [hp]))
    simp only [typesText, List.mem_append, not_or]
    refine ⟨⟨⟨⟨⟨by decide, ?_⟩, by decide⟩, not_mem_dec (by decide) _⟩, by decide⟩, ih⟩
    intro hh
    exact hm (t, l) (by simp) '"' (mem_escape (by decide) hh) (by decide)

theorem readFrame_eq {typeName : TypeIdx → List Char} (r : VRec EFrame) (hn : ∀ c ∈ r.prop.id.toList, c ∉ "<>{}|\\\"".toList)
    (hm : TypesClean typeName r.prop.items) (rest : List Char) :
    readFrame r.idx (frameText typeName r.prop ++ ";\n".toList ++ rest) = some (shownOf typeName r, rest) := by
  have e : frameText typeName r.prop ++ ";\n".toList ++ rest = "[shape=record, label=\"".toList ++ (("{{".toList ++ (r.prop.id.toList ++ '|' ::
      (dec r.prop.totalItemCount ++ '}' :: (typesText typeName r.prop.items ++ ['}'])))) ++ '"' ::
      (",style=filled,fillcolor=lightblue];\n".toList ++ rest)) := by
    exact frame_assoc lit_record lit_close lit_style _ _ _ _
  have hq : '"' ∉ "{{".toList ++ (r.prop.id.toList ++ '|' :: (dec r.prop.totalItemCount ++ '}' :: (typesText typeName r.prop.items ++ ['}']))) := by
    simp only [List.mem_append, List.mem_cons, not_or]
    refine ⟨by decide, fun hh => hn _ hh (by decide), by decide, not_mem_dec (by decide) _, by decide, quote_typesText hm, by decide, by simp⟩
  rw [e, readFrame, lit_append]
  simp only [Option.bind_some]
  rw [upTo_append hq]
  simp only [Option.bind_some, lit_append]
  have hr : readRecord r.idx ("{{".toList ++ (r.prop.id.toList ++ '|' :: (dec r.prop.totalItemCount ++ '}' ::
      (typesText typeName r.prop.items ++ ['}'])))) = some (shownOf typeName r) := by
    rw [readRecord, lit_append]
    simp only [Option.bind_some, upTo_append (fun hh => hn '|' hh (by decide) : '|' ∉ r.prop.id.toList),
      upTo_append (not_mem_dec (c := '}') (by decide) r.prop.totalItemCount), cellText_plain hn]
    rw [readTypes_eq _ hm _ (by have := typesText_length typeName r.prop.items; simp; omega)]
    simp [shownOf, number_dec]
  rw [hr]
  rfl

/-- an edge as it should be shown -/
def arrowOf (edgeText : E → List Char) (g : G EFrame E) (e : ERec E) : Arrow := ⟨indexOf g e.src, indexOf g e.tgt, edgeText e.prop⟩

theorem readArrow_eq {edgeText : E → List Char} (g : G EFrame E) (e : ERec E) (he : '"' ∉ edgeText e.prop) (rest : List Char) :
    readArrow (indexOf g e.src) ("->".toList ++ dec (indexOf g e.tgt) ++ [' '] ++ edgeLabel edgeText e.prop ++ ";\n".toList ++ rest) =
      some (arrowOf edgeText g e, rest) := by
  have e1 : "->".toList ++ dec (indexOf g e.tgt) ++ [' '] ++ edgeLabel edgeText e.prop ++ ";\n".toList ++ rest =
      "->".toList ++ (dec (indexOf g e.tgt) ++ ' ' :: ("[label=\"".toList ++ (edgeText e.prop ++ '"' ::
        (",shape=ellipse,color=red,style=filled,fillcolor=lightcoral];\n".toList ++ rest)))) := by
    exact arrow_assoc lit_quote lit_ellipse _ _ _ _ _
  rw [e1, readArrow, lit_append]
  simp only [Option.bind_some]
  rw [digits_append (dec_isDigit _) (by decide)]
  have e4 : ∀ x : List Char, ' ' :: ("[label=\"".toList ++ x) = " [label=\"".toList ++ x := by
    intro x
    have : " [label=\"".toList = ' ' :: "[label=\"".toList := by decide
    rw [this]; rfl
  simp only [e4, lit_append, Option.bind_some, upTo_append he, Option.map_some, number_dec, arrowOf]

theorem readFrame_arrow (n : Nat) (s : List Char) : readFrame n ("->".toList ++ s) = none := by
  unfold readFrame
  rw [lit_arrow, lit_record'']
  generalize "shape=record, label=\"".toList = a
  rw [List.cons_append, lit, if_neg (by decide)]
  rfl

theorem readAll_edges {edgeText : E → List Char} (g : G EFrame E) (es : List (ERec E)) (he : ∀ e ∈ es, '"' ∉ edgeText e.prop) :
    ∀ n, es.length < n → readAll n (es.flatMap (edgeLine edgeText g) ++ "}\n".toList) = some ([], es.map (arrowOf edgeText g)) := by
  induction es with
  | nil =>
    intro n hn
    obtain ⟨k, rfl⟩ : ∃ k, n = k + 1 := ⟨n - 1, by simp at hn; omega⟩
    simp [readAll]
  | cons e es ih =>
    intro n hn
    obtain ⟨k, rfl⟩ : ∃ k, n = k + 1 := ⟨n - 1, by simp at hn; omega⟩
    have e1 : (e :: es).flatMap (edgeLine edgeText g) ++ "}\n".toList = dec (indexOf g e.src) ++ ("->".toList ++ dec (indexOf g e.tgt) ++ [' '] ++
        edgeLabel edgeText e.prop ++ ";\n".toList ++ (es.flatMap (edgeLine edgeText g) ++ "}\n".toList)) := by
      simp [edgeLine, List.append_assoc]
    have e2 : "->".toList = '-' :: ['>'] := by decide
    generalize hrest : (es.flatMap (edgeLine edgeText g) ++ "}\n".toList) = rest at e1 ih
    have hd : digits (dec (indexOf g e.src) ++ ("->".toList ++ dec (indexOf g e.tgt) ++ [' '] ++
        edgeLabel edgeText e.prop ++ ";\n".toList ++ rest)) = (dec (indexOf g e.src), "->".toList ++ dec (indexOf g e.tgt) ++ [' '] ++
        edgeLabel edgeText e.prop ++ ";\n".toList ++ rest) := by
      rw [e2]; exact digits_append (dec_isDigit _) (by decide) _
    rw [e1, readAll, if_neg, hd]
    · simp only [number_dec]
      rw [readArrow_eq g e (he e (by simp))]
      have : readFrame (indexOf g e.src) ("->".toList ++ dec (indexOf g e.tgt) ++ [' '] ++
        edgeLabel edgeText e.prop ++ ";\n".toList ++ rest) = none := by simp only [List.append_assoc]; exact readFrame_arrow _ _
      rw [this]
      simp only
      rw [ih (fun e' he' => he e' (by simp [he'])) k (by simpa using hn)]
      rfl
    · intro hh
      have h3 := congrArg digits hh
      rw [hd] at h3
      have h4 := congrArg Prod.fst h3
      have h5 : dec (indexOf g e.src) = [] := by rw [show dec (indexOf g e.src) = (digits "}\n".toList).1 from h4]; decide
      rw [dec] at h5
      split at h5 <;> simp at h5

theorem readAll_eq {typeName : TypeIdx → List Char} {edgeText : E → List Char} (g : G EFrame E) (rs : List (VRec EFrame))
    (hr : ∀ r ∈ rs, (∀ c ∈ r.prop.id.toList, c ∉ "<>{}|\\\"".toList) ∧ TypesClean typeName r.prop.items)
    (es : List (ERec E)) (he : ∀ e ∈ es, '"' ∉ edgeText e.prop) :
    ∀ n, rs.length + es.length < n → readAll n (rs.flatMap (vertexLine typeName) ++ (es.flatMap (edgeLine edgeText g) ++ "}\n".toList)) =
      some (rs.map (shownOf typeName), es.map (arrowOf edgeText g)) := by
  induction rs with
  | nil => intro n hn; exact readAll_edges g es he n (by simpa using hn)
  | cons r rs ih =>
    intro n hn
    obtain ⟨k, rfl⟩ : ∃ k, n = k + 1 := ⟨n - 1, by simp at hn; omega⟩
    generalize es.flatMap (edgeLine edgeText g) ++ "}\n".toList = tail at ih
    have e1 : (r :: rs).flatMap (vertexLine typeName) ++ tail = dec r.idx ++ (frameText typeName r.prop ++ ";\n".toList ++
        (rs.flatMap (vertexLine typeName) ++ tail)) := by
      simp [vertexLine, List.append_assoc]
    have e2 : ∃ x, frameText typeName r.prop ++ ";\n".toList ++ (rs.flatMap (vertexLine typeName) ++ tail) = '[' :: x := by
      exact frame_head lit_record' _ _ _ _ _ _ _
    have hd : digits (dec r.idx ++ (frameText typeName r.prop ++ ";\n".toList ++ (rs.flatMap (vertexLine typeName) ++ tail))) =
        (dec r.idx, frameText typeName r.prop ++ ";\n".toList ++ (rs.flatMap (vertexLine typeName) ++ tail)) := by
      obtain ⟨x, hx⟩ := e2
      rw [hx]; exact digits_append (dec_isDigit _) (by decide) _
    rw [e1, readAll, if_neg, hd]
    · simp only [number_dec]
      rw [readFrame_eq r (hr r (by simp)).1 (hr r (by simp)).2]
      simp only
      rw [ih (fun r' hr' => hr r' (by simp [hr'])) k (by simp at hn; omega)]
      rfl
    · intro hh
      have h3 := congrArg digits hh
      rw [hd] at h3
      have h4 := congrArg Prod.fst h3
      have h5 : dec r.idx = [] := by rw [show dec r.idx = (digits "}\n".toList).1 from h4]; decide
      rw [dec] at h5
      split at h5 <;> simp at h5

theorem vertexLine_length (typeName : TypeIdx → List Char) (r : VRec EFrame) : 1 ≤ (vertexLine typeName r).length := by
  simp [vertexLine]; omega

theorem flatMap_length {α : Type} (l : List α) (f : α → List Char) (h : ∀ x ∈ l, 1 ≤ (f x).length) : l.length ≤ (l.flatMap f).length := by
  induction l with
  | nil => simp
  | cons x l ih =>
    have := h x (by simp)
    have := ih (fun y hy => h y (by simp [hy]))
    simp only [List.flatMap_cons, List.length_append, List.length_cons]; omega

/-- the picture shows the graph -/
theorem readDrawing_draw {typeName : TypeIdx → List Char} {edgeText : E → List Char} (g : G EFrame E)
    (hr : ∀ r ∈ g.verts, (∀ c ∈ r.prop.id.toList, c ∉ "<>{}|\\\"".toList) ∧ TypesClean typeName r.prop.items)
    (he : ∀ e ∈ g.edges, '"' ∉ edgeText e.prop) :
    readDrawing (draw typeName edgeText g) = some (g.verts.map (shownOf typeName), g.edges.map (arrowOf edgeText g)) := by
  unfold readDrawing draw
  simp only [List.append_assoc]
  rw [lit_append]
  simp only [Option.bind_some]
  apply readAll_eq g g.verts hr g.edges he
  have h1 := flatMap_length g.verts (vertexLine typeName) (fun x _ => vertexLine_length typeName x)
  have h2 := flatMap_length g.edges (edgeLine edgeText g) (fun x _ => by simp [edgeLine]; omega)
  have h3 : ("}\n".toList).length = 2 := by decide
  simp only [List.length_append, h3]; omega

end Draw
end Verif
