import Verif.Model.EnvireGraph
/-! # Model: the loop that removes chosen items

The loop for which `removeItemFromFrame` returns a pair of iterators (EnvireGraph.hpp 90-104):

    std::tie(it, end) = graph.getItems<T>(frame);
    while(it != end)
      if(chosen(*it)) std::tie(it, end) = graph.removeItemFromFrame(frame, it);
      else ++it;

Simplification: after the last item the returned iterators are equal although their list may not exist any more (the comment at EnvireGraph.hpp
403-405); comparing them is taken to work. -/

namespace Verif
namespace EG
variable {E : Type} [EdgeProp E]

/-- the loop, at position `pos`; `rest` are the items from `it` to `end`, `n` bounds the number of rounds -/
def removeLoop (f : FrameId) (t : TypeIdx) (chosen : ItemId → Bool) : Nat → Nat → List ItemId → EG E → Res (EG E) Unit
  | _, _, [], s => .ok () s
  | 0, _, _ :: _, _ => .ub "no end"
  | n + 1, pos, i :: rest, s =>
    if chosen i then
      match removeItemAt f ⟨f, t, pos⟩ s with
      | .ok rest' s' => removeLoop f t chosen n pos rest' s'
      | .throw x s' => .throw x s'
      | .ub r => .ub r
    else removeLoop f t chosen n (pos + 1) rest s

/-- the whole program -/
def removeChosen (f : FrameId) (t : TypeIdx) (chosen : ItemId → Bool) (s : EG E) : Res (EG E) Unit :=
  match getItemsT f t s with
  | .ok l s' => removeLoop f t chosen l.length 0 l s'
  | .throw x s' => .throw x s'
  | .ub r => .ub r

end EG
end Verif
