import Verif.Lemmas.Opaque
import Batteries.Data.List.Basic
set_option linter.unusedSectionVars false
/-! Two histories that differ only in the content of the properties, by translating both to properties without content. -/

namespace Verif
variable {F F' E E' : Type} [FrameProp F] [FrameProp F'] [EdgeProp E] [EdgeProp E']

/-- a frame property that is only a name -/
structure NameOnly where
  name : FrameId

instance : FrameProp NameOnly where
  dflt := ⟨""⟩
  setId f _ := ⟨f⟩
  getId p := p.name
  getId_setId _ _ := rfl

/-- an edge property without content -/
inductive NoContent
  | mk

instance : EdgeProp NoContent := ⟨id⟩

/-- forget the content -/
def PropMap.strip : PropMap F NameOnly E NoContent where
  frame p := ⟨FrameProp.getId p⟩
  edge _ := .mk
  getId _ := rfl
  setId f p := by
    show NameOnly.mk _ = NameOnly.mk f
    rw [FrameProp.getId_setId]
  dflt f := by
    show NameOnly.mk _ = NameOnly.mk f
    rw [FrameProp.getId_setId]
  inverse _ := rfl

namespace GS

/-- the state without content -/
abbrev stripped (s : GS F E) : GS NameOnly NoContent := s.trans PropMap.strip

theorem Cmd.SameShape.bare {c : Cmd F E} {c' : Cmd F' E'} (h : c.SameShape c') :
    exec (c'.trans PropMap.strip) = exec (c.trans PropMap.strip) := by
  cases h <;> rfl

theorem bares {cs : List (Cmd F E)} {cs' : List (Cmd F' E')} (h : List.Forall₂ Cmd.SameShape cs cs') (s : GS NameOnly NoContent) :
    run (cs'.map (Cmd.trans PropMap.strip)) s = run (cs.map (Cmd.trans PropMap.strip)) s := by
  induction h generalizing s with
  | nil => rfl
  | cons h1 _ ih =>
    rw [List.map_cons, List.map_cons, run, run, h1.bare]
    cases exec _ s <;> first | exact ih _ | rfl

theorem sameShape_of_bare {s : GS F E} {s' : GS F' E'} (h : s'.stripped = s.stripped) : s.SameShape s' := by
  have hg : s'.g.trans PropMap.strip = s.g.trans PropMap.strip := congrArg GS.g h
  have h1 := congrArg G.verts hg
  have h2 := congrArg G.edges hg
  have h3 := congrArg G.labels hg
  refine ⟨⟨?_, ?_, h3⟩, congrArg GS.subs h, congrArg GS.views h, ?_⟩
  · have := congrArg (List.map fun r : VRec NameOnly => (r.id, r.idx, r.prop.name)) h1
    simp only [G.trans, List.map_map, Function.comp_def] at this
    exact this
  · have := congrArg (List.map fun e : ERec NoContent => (e.id, e.src, e.tgt)) h2
    simp only [G.trans, List.map_map, Function.comp_def] at this
    exact this
  · have := congrArg (fun s : GS NameOnly NoContent => s.trace.map Prod.fst) h
    simp only [stripped, trans, List.map_map, Function.comp_def] at this
    exact this

theorem runs_shape {cs : List (Cmd F E)} {cs' : List (Cmd F' E')} (h : List.Forall₂ Cmd.SameShape cs cs') :
    (run cs init = none ↔ run cs' init = none) ∧ ∀ s s', run cs init = some s → run cs' init = some s' → s.SameShape s' := by
  have h1 : run (cs.map (Cmd.trans PropMap.strip)) init = (run cs init).map stripped := run_trans PropMap.strip cs (init : GS F E)
  have h2 : run (cs'.map (Cmd.trans PropMap.strip)) init = (run cs' init).map stripped := run_trans PropMap.strip cs' (init : GS F' E')
  rw [bares h, h1] at h2
  refine ⟨?_, ?_⟩
  · cases hx : run cs init with
    | none =>
      rw [hx] at h2
      cases hy : run cs' init with
      | none => simp
      | some s' => rw [hy] at h2; cases h2
    | some s =>
      rw [hx] at h2
      cases hy : run cs' init with
      | none => rw [hy] at h2; cases h2
      | some s' => simp
  · intro s s' hs hs'
    rw [hs, hs'] at h2
    exact sameShape_of_bare (Option.some.inj h2).symm

theorem exec_shape {c : Cmd F E} {c' : Cmd F' E'} (h : c.SameShape c') {cs : List (Cmd F E)} {cs' : List (Cmd F' E')}
    (hcs : List.Forall₂ Cmd.SameShape cs cs') {s : GS F E} {s' : GS F' E'} (hs : run cs init = some s) (hs' : run cs' init = some s') :
    SameShapeO (exec c s) (exec c' s') := by
  have h1 : run (cs.map (Cmd.trans PropMap.strip)) init = (run cs init).map stripped := run_trans PropMap.strip cs (init : GS F E)
  have h2 : run (cs'.map (Cmd.trans PropMap.strip)) init = (run cs' init).map stripped := run_trans PropMap.strip cs' (init : GS F' E')
  rw [bares hcs, h1, hs, hs'] at h2
  have hb : s.stripped = s'.stripped := Option.some.inj h2
  have e1 := exec_trans PropMap.strip c s
  have e2 := exec_trans PropMap.strip c' s'
  rw [h.bare] at e2
  change exec _ s'.stripped = _ at e2
  change exec _ s.stripped = _ at e1
  rw [← hb, e1] at e2
  cases hx : exec c s with
  | ok a r =>
    cases hy : exec c' s' with
    | ok a' r' => rw [hx, hy] at e2; cases a; cases a'; exact .ok (sameShape_of_bare (by simpa [Res.trans] using e2.symm))
    | throw x r' => rw [hx, hy] at e2; cases e2
    | ub m => rw [hx, hy] at e2; cases e2
  | throw x r =>
    cases hy : exec c' s' with
    | ok a' r' => rw [hx, hy] at e2; cases e2
    | throw x' r' =>
      rw [hx, hy] at e2
      simp only [Res.trans, Res.throw.injEq] at e2
      rw [e2.1]
      exact .throw (sameShape_of_bare e2.2.symm)
    | ub m => rw [hx, hy] at e2; cases e2
  | ub m =>
    cases hy : exec c' s' with
    | ok a' r' => rw [hx, hy] at e2; cases e2
    | throw x' r' => rw [hx, hy] at e2; cases e2
    | ub m' =>
      rw [hx, hy] at e2
      simp only [Res.trans, Res.ub.injEq] at e2
      rw [e2]
      exact .ub

end GS
end Verif
