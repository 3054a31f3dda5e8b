import Verif.Lemmas.DrawGeneric
import Verif.Lemmas.Steps
import Verif.Spec.Demo
set_option linter.unusedSectionVars false
/-! # C108: graphs with other frame and edge classes have different drawings if they are different -/

namespace Verif
open Draw
variable {F E : Type}

/-- an arrow with the texts at its ends -/
structure C108Arrow where
  src : Option (List Char)
  tgt : Option (List Char)
  text : List Char
  deriving DecidableEq

/-- What a person sees: the text in each box, and each arrow with the texts at its ends. -/
def C108_see (p : List Box × List Arrow) : List (List Char) × List C108Arrow :=
  (p.1.map Box.text, p.2.map fun a => ⟨(p.1.find? fun b => b.index = a.src).map Box.text, (p.1.find? fun b => b.index = a.tgt).map Box.text, a.text⟩)

/-- What there is to see in a graph: the text of each frame, and each edge with the texts of the frames at its ends. -/
def C108_content (frameText : F → List Char) (edgeText : E → List Char) (g : G F E) : List (List Char) × List C108Arrow :=
  (g.verts.map fun r => frameText r.prop,
   g.edges.map fun e => ⟨(g.verts.find? fun r => r.id = e.src).map fun r => frameText r.prop,
     (g.verts.find? fun r => r.id = e.tgt).map fun r => frameText r.prop, edgeText e.prop⟩)

/-- The full statement: graphs with the same drawing have the same content. -/
def C108_statement (F E : Type) [FrameProp F] [EdgeProp E] : Prop :=
  ∀ (cs cs' : List (GS.Cmd F E)) (s s' : GS F E) (frameText : F → List Char) (edgeText : E → List Char),
    GS.run cs GS.init = some s → GS.run cs' GS.init = some s' →
      drawGeneric frameText edgeText s.g = drawGeneric frameText edgeText s'.g →
      C108_content frameText edgeText s.g = C108_content frameText edgeText s'.g

/-- the text of a frame is its name -/
def C108_name (f : DemoFrame) : List Char := f.id.toList
/-- the text of an edge: a sign and digits -/
def C108_number (x : Int) : List Char := if x < 0 then '-' :: dec x.natAbs else dec x.natAbs
/-- a name that ends the box and begins another -/
def C108_evil : FrameId := "a}}\",style=filled,fillcolor=lightblue];\n1[shape=record, label=\"{{b"

/-- A graph with two frames and a graph with one frame have the same drawing: the texts are written as they are. -/
theorem C108_same_drawing_fails : ∃ s s' : GS DemoFrame Int, GS.run [.addFrame "a", .addFrame "b"] GS.init = some s ∧
    GS.run [.addFrame C108_evil] GS.init = some s' ∧
    drawGeneric C108_name C108_number s.g = drawGeneric C108_name C108_number s'.g ∧
    (C108_content C108_name C108_number s.g).1 = [['a'], ['b']] ∧ (C108_content C108_name C108_number s'.g).1 = [C108_evil.toList] := by
  refine ⟨_, _, rfl, rfl, ?_, ?_, ?_⟩ <;> decide +kernel

theorem C108_fails : ¬ C108_statement DemoFrame Int := by
  intro h
  obtain ⟨s, s', hs, hs', hd, h1, h2⟩ := C108_same_drawing_fails
  have := congrArg Prod.fst (h _ _ s s' C108_name C108_number hs hs' hd)
  rw [h1, h2] at this
  exact absurd (congrArg List.length this) (by simp)

private theorem find_box {frameText : F → List Char} {l : List (VRec F)} (hn : (l.map VRec.idx).Nodup) {r : VRec F} (hr : r ∈ l) :
    (((l.map fun r => (⟨r.idx, frameText r.prop⟩ : Box)).find? fun b => b.index = r.idx).map Box.text) = some (frameText r.prop) := by
  induction l with
  | nil => simp at hr
  | cons x l ih =>
    simp only [List.map_cons, List.nodup_cons] at hn
    simp only [List.map_cons, List.find?_cons]
    by_cases hx : x.idx = r.idx
    · have : x = r := by
        rcases List.mem_cons.1 hr with h | h
        · exact h.symm
        · exact absurd (List.mem_map.2 ⟨r, h, hx.symm⟩) hn.1
      subst this
      simp
    · have hr' : r ∈ l := by
        rcases List.mem_cons.1 hr with h | h
        · exact absurd (by rw [h]) hx
        · exact h
      simp only [hx, decide_false]
      exact ih hn.2 hr'

/-- What is missing: texts with quotes.  For all other texts the file can be read and shows every frame with its text, and every edge between
the right frames with its text, also if the graph is a copy or loaded.  Braces and bars in the text of a frame do not make files equal. -/
theorem C108_round_trip_partial {g : G F E} [FrameProp F] [EdgeProp E] (hw : WF g) (frameText : F → List Char) (edgeText : E → List Char)
    (hn : ∀ r ∈ g.verts, '"' ∉ frameText r.prop) (he : ∀ e ∈ g.edges, '"' ∉ edgeText e.prop) :
    (readGeneric (drawGeneric frameText edgeText g)).map C108_see = some (C108_content frameText edgeText g) := by
  rw [readGeneric_draw g hn he]
  have hname : ∀ v, (∃ r ∈ g.verts, r.id = v) → (((g.verts.map fun r => (⟨r.idx, frameText r.prop⟩ : Box)).find?
      fun b => b.index = indexIn g v).map Box.text) = (g.verts.find? fun r => r.id = v).map fun r => frameText r.prop := by
    rintro v ⟨r, hr, rfl⟩
    have h1 : g.findV r.id = some r := hw.findV_iff.2 ⟨hr, rfl⟩
    have h2 : (g.verts.find? fun x => x.id = r.id) = some r := h1
    rw [h2]
    simp only [indexIn, h1, Option.map_some, Option.getD_some]
    exact find_box hw.inodup hr
  simp only [Option.map_some, C108_see, C108_content, List.map_map]
  congr 2
  apply List.map_congr_left
  intro e hmem
  simp only [Function.comp_apply, hname _ (hw.esrc e hmem), hname _ (hw.etgt e hmem)]

/-- Descriptors and indices differ, a text has a bar and braces: the arrows are between the right boxes. -/
example : (readGeneric (drawGeneric C108_name C108_number (⟨[⟨1, 0, ⟨"a|}", 0⟩⟩, ⟨0, 1, ⟨"b", 0⟩⟩, ⟨3, 2, ⟨"", 0⟩⟩], [⟨0, 1, 0, 25⟩, ⟨1, 0, 3, -3⟩],
      [("a|}", 1), ("b", 0), ("", 3)], 4, 2, 3⟩ : G DemoFrame Int))).map C108_see =
    some ([['a', '|', '}'], ['b'], []], [⟨some ['a', '|', '}'], some ['b'], ['2', '5']⟩, ⟨some ['b'], some [], ['-', '3']⟩]) := by decide +kernel

/-- So two graphs with texts without quotes and the same drawing have the same content. -/
theorem C108_injective_partial [FrameProp F] [EdgeProp E] (cs cs' : List (GS.Cmd F E)) {s s' : GS F E} (frameText : F → List Char)
    (edgeText : E → List Char) (hs : GS.run cs GS.init = some s) (hs' : GS.run cs' GS.init = some s')
    (hn : ∀ x, '"' ∉ frameText x) (he : ∀ x, '"' ∉ edgeText x)
    (h : drawGeneric frameText edgeText s.g = drawGeneric frameText edgeText s'.g) :
    C108_content frameText edgeText s.g = C108_content frameText edgeText s'.g := by
  have h1 := C108_round_trip_partial (GS.run_wf WF.empty hs) frameText edgeText (fun r _ => hn r.prop) (fun e _ => he e.prop)
  have h2 := C108_round_trip_partial (GS.run_wf WF.empty hs') frameText edgeText (fun r _ => hn r.prop) (fun e _ => he e.prop)
  rw [h, h2] at h1
  exact (Option.some.inj h1).symm

/-- The drawing of a graph built by calls. -/
example : ∃ s : GS DemoFrame Int, GS.run [.addFrame "x", .addEdge "a" "b" 7, .removeFrame "x"] GS.init = some s ∧
    (readGeneric (drawGeneric C108_name C108_number s.g)).map C108_see =
      some ([['a'], ['b']], [⟨some ['a'], some ['b'], ['7']⟩, ⟨some ['b'], some ['a'], ['-', '7']⟩]) := by
  refine ⟨_, rfl, ?_⟩; decide +kernel

/-- An edge with another value, or in the other direction, gives another drawing. -/
example : ∃ s s' s'' : GS DemoFrame Int, GS.run [.addFrame "a", .addEdge "a" "b" 7] GS.init = some s ∧
    GS.run [.addFrame "a", .addEdge "a" "b" 8] GS.init = some s' ∧ GS.run [.addFrame "a", .addEdge "b" "a" 7] GS.init = some s'' ∧
    drawGeneric C108_name C108_number s.g ≠ drawGeneric C108_name C108_number s'.g ∧
    drawGeneric C108_name C108_number s.g ≠ drawGeneric C108_name C108_number s''.g := by
  refine ⟨_, _, _, rfl, rfl, rfl, ?_, ?_⟩ <;> decide +kernel

end Verif
