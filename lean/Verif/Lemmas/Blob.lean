import Verif.Model.Blob
import Verif.Lemmas.Archive
import Verif.Lemmas.Binary

set_option linter.unusedSectionVars false
/-! # Blobs: tokens of bytes, loading with types -/

namespace Verif.Blob
variable {D E : Type} {C : Codec D E}

/-- the bytes of an archive -/
def bytesOf (C : Codec D E) (ts : List (Tok D E)) : List UInt8 := C.header ++ ts.flatMap C.enc

theorem dec_nil (hC : C.Lawful) : C.dec [] = none := hC.cut (.size 0) [] _ rfl (hC.pos _)

theorem tokens_append (hC : C.Lawful) (ts : List (Tok D E)) : ∀ (n : Nat) (r : List UInt8), (ts.flatMap C.enc).length ≤ n →
    ∃ m, tokens C n (ts.flatMap C.enc ++ r) = ts ++ tokens C m r := by
  induction ts with
  | nil => intro n r _; exact ⟨n, rfl⟩
  | cons t ts ih =>
    intro n r hn
    have hp := List.length_pos_iff.2 (hC.pos t)
    simp only [List.flatMap_cons, List.length_append] at hn
    obtain ⟨k, rfl⟩ : ∃ k, n = k + 1 := ⟨n - 1, by omega⟩
    obtain ⟨m, hm⟩ := ih k r (by omega)
    refine ⟨m, ?_⟩
    rw [List.flatMap_cons, List.append_assoc, tokens, hC.back]
    simp only [hm, List.cons_append]

theorem tokens_cut (hC : C.Lawful) (ts : List (Tok D E)) : ∀ (n : Nat) (p q : List UInt8), p.length ≤ n → ts.flatMap C.enc = p ++ q → q ≠ [] →
    ∃ k, k < ts.length ∧ tokens C n p = ts.take k := by
  induction ts with
  | nil =>
    intro n p q _ h hq
    have : p ++ q = [] := by simpa using h.symm
    exact absurd (List.append_eq_nil_iff.1 this).2 hq
  | cons t ts ih =>
    intro n p q hn h hq
    rw [List.flatMap_cons] at h
    rcases List.append_eq_append_iff.1 h with ⟨a, rfl, h2⟩ | ⟨c, h1, h2⟩
    · have hp := List.length_pos_iff.2 (hC.pos t)
      simp only [List.length_append] at hn
      obtain ⟨k, rfl⟩ : ∃ k, n = k + 1 := ⟨n - 1, by omega⟩
      obtain ⟨j, hj, e⟩ := ih k a q (by omega) h2 hq
      refine ⟨j + 1, by simpa using hj, ?_⟩
      rw [tokens, hC.back]
      simp [e]
    · by_cases hc : c = []
      · subst hc
        have hp := List.length_pos_iff.2 (hC.pos t)
        have h1' : p = C.enc t := by simpa using h1.symm
        subst h1'
        obtain ⟨k, rfl⟩ : ∃ k, n = k + 1 := ⟨n - 1, by omega⟩
        have e : tokens C (k + 1) (C.enc t) = [t] := by
          have := hC.back t []
          rw [List.append_nil] at this
          rw [tokens, this]
          cases k <;> simp [tokens, dec_nil hC]
        have hts : ts ≠ [] := by
          rintro rfl
          exact hq (by simpa using h2)
        exact ⟨1, by simpa [Nat.pos_iff_ne_zero] using hts, by rw [e]; simp⟩
      · refine ⟨0, by simp, ?_⟩
        have := hC.cut t p c h1 hc
        cases n <;> simp [tokens, this]

theorem openArchive_eq (C : Codec D E) (r : List UInt8) :
    openArchive C (C.header ++ r) = .ok (IArchive.new (tokens C r.length r)) (C.header ++ r) := by
  simp [openArchive, InBuf.exec, InBuf.xsgetn, InBuf.new]

theorem openArchive_alien (C : Codec D E) {b : List UInt8} (h : ¬ C.header <+: b) : ∃ x, openArchive C b = .throw x b := by
  refine ⟨.runtimeError "archive_exception: input stream error or invalid signature", ?_⟩
  rw [openArchive, if_neg]
  intro e
  apply h
  rw [← e]
  simp only [InBuf.exec, InBuf.xsgetn, InBuf.new, List.drop_zero]
  exact List.take_prefix _ _

theorem written (C : Codec D E) (ts : List (Tok D E)) (old : List UInt8) :
    (OutBuf.run (.write C.header :: ts.map (fun t => .write (C.enc t))) (OutBuf.new old)).vec =
      bytesOf C ts ++ old.drop (bytesOf C ts).length := by
  have h := ((OutBuf.At.start old).run (.write C.header :: ts.map (fun t => .write (C.enc t)))).vec
  have e : (OutBuf.Op.write C.header :: ts.map (fun t => OutBuf.Op.write (C.enc t))).flatMap OutBuf.Op.bytes = bytesOf C ts := by
    simp [bytesOf, OutBuf.Op.bytes, List.flatMap_map]
  simpa [e] using h

/-- the tokens of one item in a new archive -/
def itemToks (c : String) (o : SObj D) : List (Tok D E) := [.str c, .newPtr o.type, .time o.time, .uuid o.uuid, .str o.frame, .data o.data]

theorem save_new {R : Registry} {heap : ItemId → SObj D} {i : ItemId} {c : String} (hc : R.className (heap i).type = some c)
    (hh : R.hasHandle c = true) : (OArchive.new : OArchive D E).save R heap i =
      (true, ⟨[.str c, .newPtr (heap i).type, .time (heap i).time, .uuid (heap i).uuid, .str (heap i).frame, .data (heap i).data], [i]⟩) := by
  simp [OArchive.save, hc, hh, OArchive.savePtr, OArchive.new, OArchive.put, OArchive.saveItem]

theorem save_not {R : Registry} {heap : ItemId → SObj D} {i : ItemId} (h : R.serializable (heap i).type = false) (w : OArchive D E) :
    w.save R heap i = (false, w) := by
  unfold Registry.serializable at h
  unfold OArchive.save
  cases hc : R.className (heap i).type with
  | none => rfl
  | some c => rw [hc] at h; simp only at h; simp [h]

theorem serializable_iff {R : Registry} {t : TypeIdx} : R.serializable t = true ↔ ∃ c, R.className t = some c ∧ R.hasHandle c = true := by
  unfold Registry.serializable
  cases R.className t <;> simp

/-- the pointer that a typed load returns -/
theorem loadAs_goes {R : Registry} {H : String → Bool} {heap : ItemId → SObj D} {S : List ItemId} {i : ItemId} (T : TypeIdx → Bool)
    (hH : OArchive.Knows R H (heap i).type) (hi : R.serializable (heap i).type = true) (w : OArchive D E) :
    Goes heap S w (w.save R heap i).2 (loadAs T H) (true, if T (heap i).type then some (S.idxOf i) else none) := by
  obtain ⟨-, hg, hm⟩ := OArchive.save_goes (S := S) hH hi w
  refine ⟨hg.out, hg.saved, fun hS ts rest e => ?_⟩
  have h := hg.reads hS ts rest e
  unfold loadAs
  rw [h]
  have hk : (⟨rest, (w.save R heap i).2.saved.map heap⟩ : IArchive D E).typeOf (S.idxOf i) = some (heap i).type := by
    rw [OArchive.idxOf_prefix hS hm]
    simp [IArchive.typeOf, List.getElem?_map, List.getElem?_idxOf hm]
  simp only [IArchive.bind, Option.isSome_some, Option.filter_some, hk, Option.any_some]

theorem saveAll_goes {R : Registry} {H : String → Bool} {heap : ItemId → SObj D} {S : List ItemId} :
    ∀ (l : List (ItemId × (TypeIdx → Bool))) (w : OArchive D E), (∀ p ∈ l, OArchive.Knows R H (heap p.1).type) →
    (∀ p ∈ l, R.serializable (heap p.1).type = true) →
    (saveAll R heap (l.map Prod.fst) w).1 = l.map (fun _ => true) ∧
    Goes heap S w (saveAll R heap (l.map Prod.fst) w).2 (loadAllAs H (l.map Prod.snd))
      (l.map fun p => (true, if p.2 (heap p.1).type then some (S.idxOf p.1) else none)) ∧
    ∀ p ∈ l, p.1 ∈ (saveAll R heap (l.map Prod.fst) w).2.saved := by
  intro l
  induction l with
  | nil => intro w _ _; exact ⟨rfl, Goes.pure _ _, by simp⟩
  | cons p l ih =>
    intro w hk hs
    have hk1 := hk p (by simp)
    have hs1 := hs p (by simp)
    obtain ⟨a1, -, a3⟩ := OArchive.save_goes (S := S) hk1 hs1 w
    have a2 := loadAs_goes (S := S) p.2 hk1 hs1 w
    obtain ⟨b1, b2, b3⟩ := ih (w.save R heap p.1).2 (fun q hq => hk q (by simp [hq])) (fun q hq => hs q (by simp [hq]))
    refine ⟨by simp [saveAll, a1, b1], ?_, ?_⟩
    · refine a2.bind (k := fun x a => IArchive.bind (loadAllAs H (l.map Prod.snd) a) fun xs a => .ok (x :: xs) a) ?_
      exact b2.bind (k := fun xs a => .ok (_ :: xs) a) (Goes.pure _ _)
    · intro q hq
      rcases List.mem_cons.1 hq with rfl | hq
      · exact b2.saved.subset a3
      · exact b3 q hq

end Verif.Blob
