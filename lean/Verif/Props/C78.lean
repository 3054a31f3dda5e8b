import Verif.Lemmas.Drawing
import Verif.Lemmas.ItemChain
import Verif.Spec.Demo
set_option linter.unusedSectionVars false
/-! # C78: a drawing shows exactly the graph -/

namespace Verif
open Draw
variable {E : Type}

/-- a frame: name, number of items, number of items of each type -/
structure C78Frame where
  name : List Char
  count : Nat
  types : List (List Char × Nat)
  deriving DecidableEq

/-- an arrow with the names at its ends -/
structure C78Arrow where
  src : Option (List Char)
  tgt : Option (List Char)
  text : List Char
  deriving DecidableEq

/-- name of the frame with this index in a picture -/
def C78_nameAt (fs : List Shown) (i : Nat) : Option (List Char) := (fs.find? fun f => f.index = i).map Shown.name

/-- What a person sees: name, number of items and types of each frame; each arrow with the names at its ends.  Indices are not shown. -/
def C78_see (p : List Shown × List Arrow) : List C78Frame × List C78Arrow :=
  (p.1.map fun f => ⟨f.name, f.count, f.types⟩, p.2.map fun a => ⟨C78_nameAt p.1 a.src, C78_nameAt p.1 a.tgt, a.text⟩)

/-- What there is to see in a graph. -/
def C78_content (typeName : TypeIdx → List Char) (edgeText : E → List Char) (g : G EFrame E) :
    List C78Frame × List C78Arrow :=
  (g.verts.map fun r => ⟨r.prop.id.toList, r.prop.visit.length, r.prop.items.map fun p => (typeName p.1, p.2.length)⟩,
   g.edges.map fun e => ⟨(g.verts.find? fun r => r.id = e.src).map fun r => r.prop.id.toList,
     (g.verts.find? fun r => r.id = e.tgt).map fun r => r.prop.id.toList, edgeText e.prop⟩)

/-- The full statement: the file can be read, and shows the graph, if the names of C++ types contain none of `{ } | \ "` and the texts of the
edges no quote. -/
def C78_statement : Prop :=
  ∀ (heap : ItemId → ItemObj) (cs : List (EG.Cmd Int)) (s : EG Int) (typeName : TypeIdx → List Char) (edgeText : Int → List Char),
    EG.run cs (EG.init heap) = some s → (∀ t, ∀ c ∈ typeName t, c ∉ ['{', '}', '|', '\\', '"']) → (∀ x, '"' ∉ edgeText x) →
      (readDrawing (draw typeName edgeText s.gs.g)).map C78_see = some (C78_content typeName edgeText s.gs.g)

def C78_heap (i : ItemId) : ItemObj := ⟨i, ""⟩
def C78_type (t : TypeIdx) : List Char := if t = 0 then ['S'] else ['T', '<', 'x', '>']
def C78_edge (_ : Int) : List Char := ['t']

/-- Two different graphs with the same drawing: frame names are written as they are. -/
theorem C78_same_drawing_fails : ∃ s s' : EG Int,
    EG.run [.graph (.addFrame "a|2}| {S"), .addItemToFrame "a|2}| {S" 1] (EG.init C78_heap) = some s ∧
    EG.run [.graph (.addFrame "a"), .addItemToFrame "a" 0, .addItemToFrame "a" 1] (EG.init C78_heap) = some s' ∧
    draw C78_type C78_edge s.gs.g = draw C78_type C78_edge s'.gs.g ∧
    C78_content C78_type C78_edge s.gs.g ≠ C78_content C78_type C78_edge s'.gs.g := by
  refine ⟨_, _, rfl, rfl, ?_, ?_⟩ <;> decide +kernel

/-- A quote in a frame name: the file is broken. -/
theorem C78_unreadable_fails : ∃ s : EG Int, EG.run [.graph (.addFrame "a\"b")] (EG.init C78_heap) = some s ∧
    readDrawing (draw C78_type C78_edge s.gs.g) = none := by
  refine ⟨_, rfl, ?_⟩; decide +kernel

theorem C78_fails : ¬ C78_statement := by
  intro h
  obtain ⟨s, hs, hr⟩ := C78_unreadable_fails
  have := h C78_heap _ s C78_type C78_edge hs (by intro t; unfold C78_type; split <;> decide) (by intro x; unfold C78_edge; decide)
  rw [hr] at this
  exact absurd this (by simp)

private theorem find_index {typeName : TypeIdx → List Char} {l : List (VRec EFrame)} (hn : (l.map VRec.idx).Nodup) {r : VRec EFrame} (hr : r ∈ l) :
    C78_nameAt (l.map (shownOf typeName)) r.idx = some r.prop.id.toList := by
  unfold C78_nameAt
  induction l with
  | nil => simp at hr
  | cons x l ih =>
    simp only [List.map_cons, List.nodup_cons] at hn
    simp only [List.map_cons, List.find?_cons]
    by_cases hx : x.idx = r.idx
    · have : x = r := by
        rcases List.mem_cons.1 hr with h | h
        · exact h.symm
        · exact absurd (List.mem_map.2 ⟨r, h, hx.symm⟩) hn.1
      subst this
      simp [shownOf]
    · have hr' : r ∈ l := by
        rcases List.mem_cons.1 hr with h | h
        · exact absurd (by rw [h]) hx
        · exact h
      have h2 : (decide ((shownOf typeName x).index = r.idx)) = false := decide_eq_false hx
      rw [h2]
      exact ih hn.2 hr'

/-- What is missing: frame names with one of `< > { } | \ "`.  For all other names the file can be read and shows every frame with its name,
its number of items and its types, and every edge between the right frames with its text.  The graph may also be a copy or loaded, so the
index of a vertex need not have to do with its descriptor. -/
theorem C78_any_graph_partial [EdgeProp E] {g : G EFrame E} (hw : WF g) (typeName : TypeIdx → List Char) (edgeText : E → List Char)
    (hn : ∀ r ∈ g.verts, ∀ c ∈ r.prop.id.toList, c ∉ ['<', '>', '{', '}', '|', '\\', '"'])
    (ht : ∀ t, ∀ c ∈ typeName t, c ∉ ['{', '}', '|', '\\', '"']) (he : ∀ x, '"' ∉ edgeText x) :
    (readDrawing (draw typeName edgeText g)).map C78_see = some (C78_content typeName edgeText g) := by
  have q1 : "<>{}|\\\"".toList = ['<', '>', '{', '}', '|', '\\', '"'] := by decide
  have q2 : "{}|\\\"".toList = ['{', '}', '|', '\\', '"'] := by decide
  rw [readDrawing_draw g (fun r hr => ⟨by rw [q1]; exact hn r hr, fun p _ => by rw [q2]; exact ht p.1⟩) (fun e _ => he e.prop)]
  have hname : ∀ v, (∃ r ∈ g.verts, r.id = v) → C78_nameAt (g.verts.map (shownOf typeName)) (indexOf g v) =
      (g.verts.find? fun r => r.id = v).map fun r => r.prop.id.toList := by
    rintro v ⟨r, hr, rfl⟩
    have h1 : g.findV r.id = some r := hw.findV_iff.2 ⟨hr, rfl⟩
    have h2 : (g.verts.find? fun x => x.id = r.id) = some r := h1
    rw [h2]
    simp only [indexOf, h1, Option.map_some, Option.getD_some]
    exact find_index hw.inodup hr
  simp only [Option.map_some, C78_see, C78_content, List.map_map]
  congr 2
  · apply List.map_congr_left
    intro r _
    simp [shownOf, EFrame.totalItemCount_eq]
  · apply List.map_congr_left
    intro e hmem
    simp only [Function.comp_apply, arrowOf, hname _ (hw.esrc e hmem), hname _ (hw.etgt e hmem)]

/-- A graph whose descriptors and indices differ: the arrow goes from "a" to "b". -/
example : (readDrawing (draw C78_type C78_edge (⟨[⟨1, 0, ⟨"a", []⟩⟩, ⟨0, 1, ⟨"b", [(1, [4])]⟩⟩], [⟨0, 1, 0, 5⟩], [("a", 1), ("b", 0)], 2, 1, 2⟩ :
      G EFrame Int))).map C78_see =
    some ([⟨['a'], 0, []⟩, ⟨['b'], 1, [(['T', '<', 'x', '>'], 1)]⟩], [⟨some ['a'], some ['b'], ['t']⟩]) := by decide +kernel

/-- The same for every graph that calls can build. -/
theorem C78_round_trip_partial [EdgeProp E] (heap : ItemId → ItemObj) (cs : List (EG.Cmd E)) {s : EG E} (hs : EG.run cs (EG.init heap) = some s)
    (typeName : TypeIdx → List Char) (edgeText : E → List Char)
    (hn : ∀ r ∈ s.gs.g.verts, ∀ c ∈ r.prop.id.toList, c ∉ ['<', '>', '{', '}', '|', '\\', '"'])
    (ht : ∀ t, ∀ c ∈ typeName t, c ∉ ['{', '}', '|', '\\', '"']) (he : ∀ x, '"' ∉ edgeText x) :
    (readDrawing (draw typeName edgeText s.gs.g)).map C78_see = some (C78_content typeName edgeText s.gs.g) :=
  C78_any_graph_partial (EG.run_wf hs) typeName edgeText hn ht he

/-- So graphs with such names and the same drawing have the same content. -/
theorem C78_injective_partial [EdgeProp E] (heap heap' : ItemId → ItemObj) (cs cs' : List (EG.Cmd E)) {s s' : EG E}
    (hs : EG.run cs (EG.init heap) = some s) (hs' : EG.run cs' (EG.init heap') = some s')
    (typeName : TypeIdx → List Char) (edgeText : E → List Char)
    (hn : ∀ r ∈ s.gs.g.verts, ∀ c ∈ r.prop.id.toList, c ∉ ['<', '>', '{', '}', '|', '\\', '"'])
    (hn' : ∀ r ∈ s'.gs.g.verts, ∀ c ∈ r.prop.id.toList, c ∉ ['<', '>', '{', '}', '|', '\\', '"'])
    (ht : ∀ t, ∀ c ∈ typeName t, c ∉ ['{', '}', '|', '\\', '"']) (he : ∀ x, '"' ∉ edgeText x)
    (h : draw typeName edgeText s.gs.g = draw typeName edgeText s'.gs.g) :
    C78_content typeName edgeText s.gs.g = C78_content typeName edgeText s'.gs.g := by
  have h1 := C78_round_trip_partial heap cs hs typeName edgeText hn ht he
  have h2 := C78_round_trip_partial heap' cs' hs' typeName edgeText hn' ht he
  rw [h, h2] at h1
  exact (Option.some.inj h1).symm

/-- A graph with items of a template type and an edge, and what is seen in its drawing. -/
example : ∃ s : EG Int, EG.run [.graph (.addFrame "x"), .graph (.removeFrame "x"), .graph (.addEdge "a" "b" 5), .addItemToFrame "b" 1,
      .addItemToFrame "b" 0] (EG.init C78_heap) = some s ∧
    (readDrawing (draw C78_type C78_edge s.gs.g)).map C78_see =
      some ([⟨['a'], 0, []⟩, ⟨['b'], 2, [(['T', '<', 'x', '>'], 1), (['S'], 1)]⟩],
        [⟨some ['a'], some ['b'], ['t']⟩, ⟨some ['b'], some ['a'], ['t']⟩]) := by
  refine ⟨_, rfl, ?_⟩; decide +kernel

/-- the number of all items is shown, in decimal digits -/
example : (readDrawing (draw C78_type C78_edge (⟨[⟨0, 0, ⟨"b", [(1, [4, 5, 6]), (0, [7])]⟩⟩], [], [("b", 0)], 1, 0, 1⟩ : G EFrame Int))).map C78_see =
    some ([⟨['b'], 4, [(['T', '<', 'x', '>'], 3), (['S'], 1)]⟩], []) := by decide +kernel

example : dec 9 = ['9'] ∧ dec 10 = ['1', '0'] ∧ dec 305 = ['3', '0', '5'] := by decide +kernel

end Verif
