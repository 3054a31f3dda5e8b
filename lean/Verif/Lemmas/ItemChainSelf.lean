import Verif.Lemmas.ItemChain
import Verif.Lemmas.Loose
import Verif.Lemmas.PublishSelf
/-! Histories of graph and item calls with self edges. -/

namespace Verif
namespace EG
variable {E : Type} [EdgeProp E]

theorem Atom.advances {P : GS.Cmd EFrame E → Prop} {s s' : EG E} (h : Atom P s s') (hw : WF s.gs.g) (hp : Paired s.gs.g.ns) :
    Paired s'.gs.g.ns ∧ (SelfTwo s.gs.g → SelfTwo s'.gs.g) := by
  cases h with
  | call hc hx =>
    obtain ⟨l, a1, a2⟩ := GS.exec_advances hw hx
    refine ⟨a1.paired_ns hw hp, ?_⟩
    have key : ∀ {Q : G EFrame E → Event → Prop} {g g' : G EFrame E} {l : List (Event × G EFrame E)}, GSteps Q g l g' → WF g → SelfTwo g → SelfTwo g' := by
      intro Q g g' l hs
      induction hs with
      | nil => intro _ h; exact h
      | cons h1 _ _ ih => intro hw h; exact ih (h1.wf hw) (h1.selfTwo hw h)
    exact key a1 hw
  | mod v hid => exact ⟨hp.of_edges rfl, fun h => h⟩
  | heap _ => exact ⟨hp, fun h => h⟩
  | added f i => exact ⟨hp, fun h => h⟩
  | removed f i => exact ⟨hp, fun h => h⟩

theorem Chain.advances {P : GS.Cmd EFrame E → Prop} {s s' : EG E} (h : Chain P s s') (hw : WF s.gs.g) (hp : Paired s.gs.g.ns)
    (h2 : SelfTwo s.gs.g) : Paired s'.gs.g.ns ∧ SelfTwo s'.gs.g := by
  induction h with
  | refl => exact ⟨hp, h2⟩
  | tail h0 h1 ih =>
    obtain ⟨a1, a2⟩ := ih
    obtain ⟨b1, b2⟩ := Atom.advances h1 (Chain.wf h0 hw) a1
    exact ⟨b1, b2 a2⟩

theorem run_loops {cs : List (EG.Cmd E)} {heap : ItemId → ItemObj} {s : EG E} (h : EG.run cs (EG.init heap) = some s) :
    Paired s.gs.g.ns ∧ SelfTwo s.gs.g := by
  refine Chain.advances (P := fun _ => True) (EG.run_chain (fun c _ => by cases c <;> simp [EG.Cmd.within]) h) (s := EG.init heap) WF.empty ?_ ?_
  · exact run_paired_ns (cs := []) rfl
  · exact run_selfTwo (cs := []) rfl

end EG
end Verif
