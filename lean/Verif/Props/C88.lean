import Verif.Lemmas.Blob
import Verif.Spec.DemoCodec
import Verif.Spec.Demo
/-! # C88: an item saved as a blob comes back, and loading reports failure by its result

`loadFromBinary` and `load<Archive, T>` are documented to return true if successful. -/

namespace Verif
open Blob
variable {D E : Type}

/-- The property.  (1) If `saveToBinary` returns true, then loading the blob returns true and gives an equal item, for every process
that knows the class.  (2) A load with a type returns true only with an item of that type.  (3) Loading anything else, whatever
the bytes are, returns false. -/
def C88_statement : Prop := ∀ (C : Codec Nat Int), C.Lawful → ∀ (R : Registry) (H : String → Bool) (heap : ItemId → SObj Nat),
  (∀ i old vec item, OArchive.Knows R H (heap i).type → saveToBinary C R heap (some i) old = .ok true vec →
    loadFromBinary C H vec item = .ok (true, some (heap i)) vec) ∧
  (∀ (T : TypeIdx → Bool) (a a' : IArchive Nat Int) k, loadAs T H a = .ok (true, k) a' → ∃ i o, k = some i ∧ a'.objs[i]? = some o ∧ T o.type = true) ∧
  (∀ bytes item, (∀ o, loadFromBinary C H bytes item ≠ .ok (true, some o) bytes) → ∃ k, loadFromBinary C H bytes item = .ok (false, k) bytes)

/-- Part 1 holds: an item of a registered class is saved, whatever was in the vector before, and another process that knows the class
reads back an equal item: type, time, uuid, frame and data. -/
theorem C88_round_trip_partial {C : Codec D E} (hC : C.Lawful) {R : Registry} {H : String → Bool} {heap : ItemId → SObj D} {i : ItemId}
    (hs : R.serializable (heap i).type = true) (hk : OArchive.Knows R H (heap i).type) (old : List UInt8) (item : Option (SObj D)) :
    ∃ vec, saveToBinary C R heap (some i) old = .ok true vec ∧ loadFromBinary C H vec item = .ok (true, some (heap i)) vec := by
  obtain ⟨c, hc, hh⟩ := serializable_iff.1 hs
  have hH : H c = true := hk c hc hh
  refine ⟨bytesOf C (itemToks c (heap i)) ++ old.drop (bytesOf C (itemToks c (heap i))).length, ?_, ?_⟩
  · simp only [saveToBinary, save_new hc hh, written]
    rfl
  · unfold itemToks
    generalize hr : old.drop _ = r
    generalize ht : [Tok.str c, Tok.newPtr (heap i).type, Tok.time (heap i).time, Tok.uuid (heap i).uuid, Tok.str (heap i).frame,
      Tok.data (heap i).data] = ts
    obtain ⟨m, hm⟩ := tokens_append hC ts (ts.flatMap C.enc ++ r).length r (by simp)
    simp only [loadFromBinary, bytesOf, List.append_assoc, openArchive_eq, hm]
    subst ht
    simp only [IArchive.load, IArchive.read, IArchive.new, IArchive.bind,
      List.cons_append, IArchive.str?, hH, if_true, IArchive.loadPtr, IArchive.ptr?, IArchive.loadItem, IArchive.time?, IArchive.uuid?,
      IArchive.data?]
    rfl

/-- What a failed save does to the vector: only the header of the archive is written over its start.  So a blob that was saved there
before is still there, and is what loading gives. -/
theorem C88_save_false {C : Codec D E} {R : Registry} {heap : ItemId → SObj D} {i : ItemId} (hs : R.serializable (heap i).type = false)
    (old : List UInt8) :
    saveToBinary C R heap (some i) old = .ok false (C.header ++ old.drop C.header.length) ∧
    (C.header <+: old → saveToBinary C R heap (some i) old = .ok false old) := by
  have h : saveToBinary C R heap (some i) old = .ok false (C.header ++ old.drop C.header.length) := by
    have hw := written C [] old
    simp only [bytesOf, List.flatMap_nil, List.append_nil] at hw
    simp only [saveToBinary, save_not hs, ← hw, OArchive.new]
  refine ⟨h, fun hp => ?_⟩
  rw [h]
  obtain ⟨t, rfl⟩ := hp
  simp

/-- A process that does not know the class: the result is false and the item variable is unchanged. -/
theorem C88_unknown {C : Codec D E} (hC : C.Lawful) {R : Registry} {H : String → Bool} {heap : ItemId → SObj D} {i : ItemId} {c : String}
    (hc : R.className (heap i).type = some c) (hh : R.hasHandle c = true) (hH : H c = false) (old : List UInt8) (item : Option (SObj D)) :
    ∃ vec, saveToBinary C R heap (some i) old = .ok true vec ∧ loadFromBinary C H vec item = .ok (false, item) vec := by
  refine ⟨bytesOf C (itemToks c (heap i)) ++ old.drop (bytesOf C (itemToks c (heap i))).length, ?_, ?_⟩
  · simp only [saveToBinary, save_new hc hh, written]
    rfl
  · unfold itemToks
    generalize hr : old.drop _ = r
    generalize ht : [Tok.str c, Tok.newPtr (heap i).type, Tok.time (heap i).time, Tok.uuid (heap i).uuid, Tok.str (heap i).frame,
      Tok.data (heap i).data] = ts
    obtain ⟨m, hm⟩ := tokens_append hC ts (ts.flatMap C.enc ++ r).length r (by simp)
    simp only [loadFromBinary, bytesOf, List.append_assoc, openArchive_eq, hm]
    subst ht
    simp only [IArchive.load, IArchive.read, IArchive.new, IArchive.bind,
      List.cons_append, IArchive.str?, hH]
    rfl

/-- A blob that was cut off anywhere is noticed, but by an exception that leaves `loadFromBinary`, never by the result. -/
theorem C88_cut_throws {C : Codec D E} (hC : C.Lawful) {R : Registry} {H : String → Bool} {heap : ItemId → SObj D} {i : ItemId}
    (hs : R.serializable (heap i).type = true) (hk : OArchive.Knows R H (heap i).type) {vec p q : List UInt8}
    (hv : saveToBinary C R heap (some i) [] = .ok true vec) (hp : vec = p ++ q) (hq : q ≠ []) (item : Option (SObj D)) :
    ∃ x, loadFromBinary C H p item = .throw x p := by
  obtain ⟨c, hc, hh⟩ := serializable_iff.1 hs
  have hH : H c = true := hk c hc hh
  simp only [saveToBinary, save_new hc hh, written, List.drop_nil, List.append_nil, Res.ok.injEq, true_and] at hv
  by_cases hd : C.header <+: p
  · obtain ⟨r, rfl⟩ := hd
    rw [← hv, bytesOf, List.append_assoc, List.append_cancel_left_eq] at hp
    obtain ⟨k, hlt, he⟩ := tokens_cut hC _ r.length r q (Nat.le_refl _) hp hq
    simp only [loadFromBinary, openArchive_eq, he]
    simp only [List.length_cons, List.length_nil] at hlt
    have : k = 0 ∨ k = 1 ∨ k = 2 ∨ k = 3 ∨ k = 4 ∨ k = 5 := by omega
    rcases this with rfl | rfl | rfl | rfl | rfl | rfl <;>
      simp [IArchive.load, IArchive.read, IArchive.new, IArchive.bind, IArchive.str?, hH, IArchive.loadPtr, IArchive.ptr?,
        IArchive.loadItem, IArchive.time?, IArchive.uuid?]
  · obtain ⟨x, hx⟩ := openArchive_alien C hd
    exact ⟨x, by rw [loadFromBinary, hx]⟩

/-- Bytes that do not start with the header of an archive: the exception of the archive's constructor. -/
theorem C88_alien_throws (C : Codec D E) (H : String → Bool) {bytes : List UInt8} (h : ¬ C.header <+: bytes) (item : Option (SObj D)) :
    ∃ x, loadFromBinary C H bytes item = .throw x bytes := by
  obtain ⟨x, hx⟩ := openArchive_alien C h
  exact ⟨x, by rw [loadFromBinary, hx]⟩

/-- `saveToBinary` of a null pointer is undefined. -/
theorem C88_null (C : Codec D E) (R : Registry) (heap : ItemId → SObj D) (old : List UInt8) :
    ∃ m, saveToBinary C R heap none old = .ub m := ⟨_, rfl⟩

/-- Loading with types.  Any list of items is saved to one archive and read with any types: every call returns true; the pointer is
not null exactly when the item is of the type asked for, and then it points to an equal item; items that were the same object are
one object again; a call with the wrong type does not disturb those after it, and the archive is read to its end. -/
theorem C88_typed_partial {R : Registry} {H : String → Bool} {heap : ItemId → SObj D} (l : List (ItemId × (TypeIdx → Bool)))
    (hk : ∀ p ∈ l, OArchive.Knows R H (heap p.1).type) (hs : ∀ p ∈ l, R.serializable (heap p.1).type = true) :
    let w := saveAll R heap (l.map Prod.fst) (OArchive.new : OArchive D E)
    w.1 = l.map (fun _ => true) ∧ ∃ (ρ : ItemId → ItemId) (a : IArchive D E),
      loadAllAs H (l.map Prod.snd) (IArchive.new w.2.out) =
        .ok (l.map fun p => (true, if p.2 (heap p.1).type then some (ρ p.1) else none)) a ∧
      a.toks = [] ∧ (∀ p ∈ l, a.objs[ρ p.1]? = some (heap p.1)) ∧ ∀ p ∈ l, ∀ q ∈ l, ρ p.1 = ρ q.1 → p.1 = q.1 := by
  intro w
  obtain ⟨h1, h2, h3⟩ := saveAll_goes (E := E) (S := w.2.saved) l OArchive.new hk hs
  refine ⟨h1, fun i => w.2.saved.idxOf i, ⟨[], w.2.saved.map heap⟩, ?_, rfl, ?_, ?_⟩
  · have := h2.reads List.prefix_rfl w.2.out [] (by simp [w, OArchive.new])
    rw [List.append_nil] at this
    exact this
  · intro p hp
    rw [List.getElem?_map, show w.2.saved[w.2.saved.idxOf p.1]? = some p.1 from List.getElem?_idxOf (h3 p hp)]
    rfl
  · intro p hp q hq e
    have a := List.getElem?_idxOf (h3 p hp)
    rw [show List.idxOf p.1 _ = List.idxOf q.1 _ from e, List.getElem?_idxOf (h3 q hq)] at a
    exact (Option.some.inj a).symm

/-! Concrete data: class `!` is type 1, class `#` is type 2; type 3 is not registered. -/

private def dReg : Registry := ⟨fun t => if t = 1 then some "!" else if t = 2 then some "#" else none, fun c => c = "!" || c = "#"⟩
private def dHeap : ItemId → SObj Nat := fun i => if i = 0 then ⟨1, 3, 1, "!", 4⟩ else if i = 1 then ⟨2, -1, 2, "", 0⟩ else ⟨3, 0, 3, "", 0⟩
/-- the blob of item `i` over `old` -/
private def blob (i : ItemId) (old : List UInt8) : List UInt8 :=
  match saveToBinary DemoCodec.codec dReg dHeap (some i) old with | .ok _ v => v | _ => []

/-- Item 0 comes back, and so does item 1 when it is saved over the longer blob of item 0; the blob of item 0 survives the attempt to
save item 2 over it. -/
example : loadFromBinary DemoCodec.codec dReg.hasHandle (blob 0 []) none = .ok (true, some (dHeap 0)) (blob 0 []) ∧
    loadFromBinary DemoCodec.codec dReg.hasHandle (blob 1 (blob 0 [])) none = .ok (true, some (dHeap 1)) (blob 1 (blob 0 [])) ∧
    blob 1 (blob 0 []) ≠ blob 1 [] ∧ blob 2 (blob 0 []) = blob 0 [] ∧ blob 2 [] = [22, 10] := by
  decide +kernel

/-- cut off, empty, unknown -/
example : (loadFromBinary DemoCodec.codec dReg.hasHandle ((blob 0 []).dropLast) none).exn?.isSome = true ∧
    (loadFromBinary DemoCodec.codec dReg.hasHandle [] none).exn?.isSome = true ∧
    (loadFromBinary DemoCodec.codec dReg.hasHandle (blob 2 []) none).exn?.isSome = true ∧
    loadFromBinary DemoCodec.codec (fun c => c = "#") (blob 0 []) (some (dHeap 1)) = .ok (false, some (dHeap 1)) (blob 0 []) := by
  decide +kernel

/-- Items 0, 1, 0 are read as types 1, 1, 1: the second pointer is null although the call returns true; the third is the first. -/
example : (loadAllAs dReg.hasHandle [fun t => t = 1, fun t => t = 1, fun t => t = 1]
    (IArchive.new (saveAll dReg dHeap [0, 1, 0] (OArchive.new : OArchive Nat Int)).2.out)).val? =
      some [(true, some 0), (true, none), (true, some 0)] := by
  decide +kernel

/-- Part 2 of the property is wrong: item 1 is loaded with the type of item 0; the result is true and the pointer is null. -/
theorem C88_typed_fails : ∃ (R : Registry) (heap : ItemId → SObj Nat) (i : ItemId) (T : TypeIdx → Bool) (a : IArchive Nat Int),
    loadAs T R.hasHandle (IArchive.new ((OArchive.new : OArchive Nat Int).save R heap i).2.out) = .ok (true, none) a :=
  ⟨dReg, dHeap, 1, fun t => t = 1, ⟨[], [dHeap 1]⟩, rfl⟩

/-- Part 3 is wrong: no bytes at all. -/
theorem C88_empty_throws : ∃ x, loadFromBinary DemoCodec.codec (fun _ => true) [] none = .throw x [] :=
  C88_alien_throws _ _ (by decide) _

/-- So the property does not hold. -/
theorem C88_fails : ¬ C88_statement := by
  intro h
  obtain ⟨-, h2, -⟩ := h _ DemoCodec.lawful dReg dReg.hasHandle dHeap
  obtain ⟨i, o, hk, -⟩ := h2 (fun t => t = 1) (IArchive.new ((OArchive.new : OArchive Nat Int).save dReg dHeap 1).2.out) ⟨[], [dHeap 1]⟩ none rfl
  cases hk

/-- the results themselves: item 2 is not saved and the call says so; a null pointer is undefined; alien bytes in front of a good blob
throw -/
example : (match saveToBinary DemoCodec.codec dReg dHeap (some 2) [] with | .ok b _ => some b | _ => none) = some false ∧
    (match saveToBinary DemoCodec.codec dReg dHeap (some 1) [] with | .ok b _ => some b | _ => none) = some true ∧
    (match saveToBinary DemoCodec.codec dReg dHeap none [] with | .ub _ => true | _ => false) = true ∧
    (loadFromBinary DemoCodec.codec dReg.hasHandle ([22, 11] ++ (blob 0 []).drop 2) none).exn?.isSome = true := by
  refine ⟨?_, ?_, ?_, ?_⟩ <;> decide +kernel

end Verif
