import Verif.Model.ArchiveVersion
/-! # Both formats behave the same

An archive of version `v` is one of version 1 in which the two kinds of numbers are exchanged (`v = 0`) or left alone. -/

namespace Verif
variable {D E : Type}

/-- exchange the two kinds of numbers for version 0 -/
def swapTok (v : Nat) (t : Tok D (E ⊕ Nat)) : Tok D (E ⊕ Nat) :=
  if v = 0 then
    match t with
    | .size n => .edge (.inr n)
    | .edge (.inr n) => .size n
    | t => t
  else t

namespace OArchive

def swap (v : Nat) (w : OArchive D (E ⊕ Nat)) : OArchive D (E ⊕ Nat) := ⟨w.out.map (swapTok v), w.saved⟩

/-- what is left of a call in the other format -/
def swapRes {α : Type} (v : Nat) : Res (OArchive D (E ⊕ Nat)) α → Res (OArchive D (E ⊕ Nat)) α
  | .ok x w => .ok x (w.swap v)
  | .throw x w => .throw x (w.swap v)
  | .ub m => .ub m

theorem put_swap (v : Nat) (ts : List (Tok D (E ⊕ Nat))) (w : OArchive D (E ⊕ Nat)) :
    (w.swap v).put (ts.map (swapTok v)) = (w.put ts).swap v := by simp [put, swap]

theorem save_swap (v : Nat) (R : Registry) (heap : ItemId → SObj D) (i : ItemId) (w : OArchive D (E ⊕ Nat)) :
    (w.swap v).save R heap i = ((w.save R heap i).1, (w.save R heap i).2.swap v) := by
  have e0 : ∀ c, (w.swap v).put [.str c] = (w.put [.str c]).swap v := fun c => by
    rw [← put_swap]; simp [swapTok]
  have e1 : ∀ w : OArchive D (E ⊕ Nat), (w.swap v).savePtr heap i = (w.savePtr heap i).swap v := by
    intro w
    unfold savePtr
    have hs : (w.swap v).saved = w.saved := rfl
    rw [hs]
    split
    · rw [← put_swap]; simp [swapTok]
    · simp [put, swap, saveItem, swapTok]
  unfold save
  split
  · rfl
  · split
    · rw [e0, e1]
    · rfl

theorem saveList_swap (v : Nat) (R : Registry) (heap : ItemId → SObj D) (l : List ItemId) : ∀ w : OArchive D (E ⊕ Nat),
    saveList R heap l (w.swap v) = swapRes v (saveList R heap l w) := by
  induction l with
  | nil => intro w; rfl
  | cons i l ih =>
    intro w
    simp only [saveList, save_swap]
    split
    · exact ih _
    · rfl

theorem saveTypesV_swap (v : Nat) (R : Registry) (heap : ItemId → SObj D) (m : AMap TypeIdx (List ItemId)) : ∀ w : OArchive D (E ⊕ Nat),
    saveTypesV v R heap m (w.swap v) = swapRes v (saveTypes R heap m w) := by
  induction m with
  | nil => intro w; rfl
  | cons e m ih =>
    intro w
    obtain ⟨t, l⟩ := e
    have h : (w.swap v).put [countTok v l.length] = (w.put [.size l.length]).swap v := by
      rw [← put_swap]
      simp only [List.map_cons, List.map_nil, swapTok, countTok]
    simp only [saveTypesV, saveTypes, h, saveList_swap]
    cases saveList R heap l (w.put [.size l.length]) with
    | ok x w' => exact ih w'
    | throw x w' => rfl
    | ub m => rfl

/-- saving in version `v` writes what version 1 writes, with the other kind of numbers -/
theorem saveMapV_swap (v : Nat) (R : Registry) (heap : ItemId → SObj D) (m : AMap TypeIdx (List ItemId)) (w : OArchive D (E ⊕ Nat)) :
    saveMapV v R heap m (w.swap v) = swapRes v (saveMap R heap m w) := by
  unfold saveMapV saveMap
  have h : ∀ n, (w.swap v).put [countTok v n] = (w.put [.size n]).swap v := by
    intro n
    rw [← put_swap]
    simp only [List.map_cons, List.map_nil, swapTok, countTok]
  simp only [h, saveTypesV_swap]

end OArchive

namespace IArchive

def swap (v : Nat) (a : IArchive D (E ⊕ Nat)) : IArchive D (E ⊕ Nat) := ⟨a.toks.map (swapTok v), a.objs⟩

def swapRes {α : Type} (v : Nat) : Res (IArchive D (E ⊕ Nat)) α → Res (IArchive D (E ⊕ Nat)) α
  | .ok x a => .ok x (a.swap v)
  | .throw x a => .throw x (a.swap v)
  | .ub m => .ub m

theorem read_swap {α : Type} (v : Nat) (f g : Tok D (E ⊕ Nat) → Option α) (h : ∀ t, g (swapTok v t) = f t) (a : IArchive D (E ⊕ Nat)) :
    (a.swap v).read g = swapRes v (a.read f) := by
  obtain ⟨ts, os⟩ := a
  cases ts with
  | nil => rfl
  | cons t ts =>
    simp only [swap, read, List.map_cons, h]
    cases f t <;> rfl

theorem bind_swap {α β : Type} (v : Nat) (r : Res (IArchive D (E ⊕ Nat)) α) (f g : α → IArchive D (E ⊕ Nat) → Res (IArchive D (E ⊕ Nat)) β)
    (h : ∀ x a, g x (a.swap v) = swapRes v (f x a)) : bind (swapRes v r) g = swapRes v (bind r f) := by
  cases r with
  | ok x a => exact h x a
  | throw x a => rfl
  | ub m => rfl

private theorem keep {α : Type} (v : Nat) (f : Tok D (E ⊕ Nat) → Option α) (h1 : ∀ n, f (.size n) = none) (h2 : ∀ n, f (.edge (.inr n)) = none)
    (t : Tok D (E ⊕ Nat)) : f (swapTok v t) = f t := by
  unfold swapTok
  split
  · split
    · rw [h1, h2]
    · rw [h1, h2]
    · rfl
  · rfl

theorem count_swap (v : Nat) (t : Tok D (E ⊕ Nat)) : countTok? v (swapTok v t) = size? t := by
  unfold countTok? swapTok
  by_cases hv : v = 0
  · simp only [hv, if_true]
    cases t with
    | edge p => cases p <;> rfl
    | _ => rfl
  · simp only [hv, if_false]

theorem load_swap (v : Nat) (H : String → Bool) (a : IArchive D (E ⊕ Nat)) : load H (a.swap v) = swapRes v (load H a) := by
  have hitem : ∀ t (a : IArchive D (E ⊕ Nat)), loadItem t (a.swap v) = swapRes v (loadItem t a) := by
    intro t a
    unfold loadItem
    rw [read_swap v time? time? (keep v _ (fun _ => rfl) (fun _ => rfl))]
    refine bind_swap v _ _ _ (fun x a => ?_)
    rw [read_swap v uuid? uuid? (keep v _ (fun _ => rfl) (fun _ => rfl))]
    refine bind_swap v _ _ _ (fun u a => ?_)
    rw [read_swap v str? str? (keep v _ (fun _ => rfl) (fun _ => rfl))]
    refine bind_swap v _ _ _ (fun f a => ?_)
    rw [read_swap v data? data? (keep v _ (fun _ => rfl) (fun _ => rfl))]
    exact bind_swap v _ _ _ (fun d a => rfl)
  have hptr : ∀ a : IArchive D (E ⊕ Nat), loadPtr (a.swap v) = swapRes v (loadPtr a) := by
    intro a
    unfold loadPtr
    rw [read_swap v ptr? ptr? (keep v _ (fun _ => rfl) (fun _ => rfl))]
    refine bind_swap v _ _ _ (fun p a => ?_)
    cases p with
    | inr k =>
      show (if k < a.objs.length then _ else _) = swapRes v (if k < a.objs.length then _ else _)
      split <;> rfl
    | inl t =>
      show bind (loadItem t (a.swap v)) _ = swapRes v (bind (loadItem t a) _)
      rw [hitem]
      exact bind_swap v _ _ _ (fun o a => rfl)
  unfold load
  rw [read_swap v str? str? (keep v _ (fun _ => rfl) (fun _ => rfl))]
  refine bind_swap v _ _ _ (fun c a => ?_)
  split
  · rw [hptr]
    exact bind_swap v _ _ _ (fun o a => rfl)
  · rfl

theorem loadList_swap (v : Nat) (H : String → Bool) (n : Nat) : ∀ a : IArchive D (E ⊕ Nat),
    loadList H n (a.swap v) = swapRes v (loadList H n a) := by
  induction n with
  | zero => intro a; rfl
  | succ n ih =>
    intro a
    simp only [loadList]
    rw [load_swap]
    refine bind_swap v _ _ _ (fun i a => ?_)
    rw [ih]
    exact bind_swap v _ _ _ (fun l a => rfl)

theorem loadTypesV_swap (v : Nat) (H : String → Bool) (n : Nat) : ∀ (m : AMap TypeIdx (List ItemId)) (a : IArchive D (E ⊕ Nat)),
    loadTypesV v H n m (a.swap v) = swapRes v (loadTypes H n m a) := by
  induction n with
  | zero => intro m a; rfl
  | succ n ih =>
    intro m a
    simp only [loadTypesV, loadTypes]
    rw [read_swap v size? (countTok? v) (count_swap v)]
    refine bind_swap v _ _ _ (fun k a => ?_)
    rw [loadList_swap]
    refine bind_swap v _ _ _ (fun l a => ?_)
    cases l with
    | nil => exact ih m a
    | cons i l =>
      have ht : typeOf (a.swap v) i = typeOf a i := rfl
      dsimp only
      rw [ht]
      cases typeOf a i with
      | none => rfl
      | some t => exact ih _ a

/-- loading in version `v` does what version 1 does with the exchanged archive -/
theorem loadMapV_swap (v : Nat) (H : String → Bool) (a : IArchive D (E ⊕ Nat)) : loadMapV v H (a.swap v) = swapRes v (loadMap H a) := by
  unfold loadMapV loadMap
  rw [read_swap v size? (countTok? v) (count_swap v)]
  exact bind_swap v _ _ _ (fun n a => loadTypesV_swap v H n [] a)

end IArchive
end Verif
