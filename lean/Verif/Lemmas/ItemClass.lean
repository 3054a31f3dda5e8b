import Verif.Model.ItemClass
import Verif.Lemmas.ItemAnswers
import Verif.Lemmas.ItemCalls
import Mathlib.Data.Nat.Pairing
/-! # Lemmas about item classes -/

namespace Verif
namespace ICls

theorem castsTo_self (c : ICls) : c.castsTo c = true := by
  cases c <;> simp [castsTo]

/-- the type an item tells is one that it can be cast to -/
theorem castsTo_typeInfo (c : ICls) : c.castsTo c.typeInfo = true := by
  induction c with
  | item d => simp [typeInfo, castsTo]
  | derived n b o ih =>
    cases o with
    | true => simp [typeInfo, castsTo]
    | false => simp only [typeInfo, castsTo, ih, Bool.or_true]

theorem typeInfo_idem (c : ICls) : c.typeInfo.typeInfo = c.typeInfo := by
  induction c with
  | item d => rfl
  | derived n b o ih =>
    cases o with
    | true => rfl
    | false => simpa only [typeInfo] using ih

/-- an injective numbering of the classes, for examples -/
def code : ICls → Nat
  | .item d => 2 * d
  | .derived n b o => 2 * Nat.pair n (Nat.pair b.code o.toNat) + 1

theorem code_inj : ∀ a b : ICls, a.code = b.code → a = b := by
  intro a
  induction a with
  | item d =>
    intro b h
    cases b with
    | item e => simp only [code] at h; have : d = e := by omega
                rw [this]
    | derived n b o => simp only [code] at h; omega
  | derived n b o ih =>
    intro c h
    cases c with
    | item e => simp only [code] at h; omega
    | derived m c p =>
      simp only [code] at h
      have h : Nat.pair n (Nat.pair b.code o.toNat) = Nat.pair m (Nat.pair c.code p.toNat) := by omega
      obtain ⟨h1, h2⟩ := Nat.pair_eq_pair.1 h
      obtain ⟨h2, h3⟩ := Nat.pair_eq_pair.1 h2
      have h4 : o = p := by cases o <;> cases p <;> simp_all
      rw [h1, ih c h2, h4]

end ICls

/-- the items whose classes are given, with the types that follow from them -/
def ICls.heapOf (cls : ItemId → ICls) (i : ItemId) : ItemObj := ⟨(cls i).typeInfo.code, ""⟩

def ICls.classes (cls : ItemId → ICls) : ItemClasses (ICls.heapOf cls) := ⟨cls, ICls.code, ICls.code_inj, fun _ => rfl⟩

namespace EG
variable {E : Type} [EdgeProp E] {heap : ItemId → ItemObj}

theorem type_eq_iff (C : ItemClasses heap) (i : ItemId) (T : ICls) : (heap i).type = C.tid T ↔ (C.cls i).typeInfo = T := by
  rw [C.index]
  exact ⟨C.inj _ _, fun h => by rw [h]⟩

/-- in histories that remove by pointer, the queries answer according to one list, which `visitItems` visits -/
theorem run_answers {cs : List (Cmd E)} (hcs : ∀ c ∈ cs, c.byPointer) {s : EG E} (hs : run cs (init heap) = some s) {f : FrameId}
    (hf : (s.gs.g.vertexOf f).isSome) : ∃ L, AnswersAs (fun i => (heap i).type) s f L := by
  obtain ⟨hg, l, h1, h2⟩ := run_follows hcs (EG.Good.init heap) hs
  have hM := h2 Shelf.empty (EG.Stocked.init _ heap)
  have H : HSim (fun i => (heap i).type) s ⟨Shelf.empty.replay (l.map Prod.fst), fun i => (s.heap i).frame⟩ := ⟨hg, hM, fun _ => rfl⟩
  exact ⟨_, H.answers hf⟩

end EG
end Verif
