import Verif.Spec.Binary
/-! # Binary buffers -/

namespace Verif
namespace OutBuf

/-- what the buffer looks like after `w` was written over `old` -/
structure At (old w : List UInt8) (b : OutBuf) : Prop where
  vec : b.vec = w ++ old.drop w.length
  pptr : b.pptr = w.length
  epptr : b.epptr = max w.length old.length

theorem At.start (old : List UInt8) : At old [] (new old) := ⟨by simp [new], rfl, by simp [new]⟩

theorem At.store {old w : List UInt8} {b : OutBuf} (h : At old w b) (c : UInt8) (hr : b.pptr < b.epptr) :
    At old (w ++ [c]) (b.store c) := by
  have hl : w.length < old.length := by
    have := h.pptr; have := h.epptr; omega
  refine ⟨?_, by simp [OutBuf.store, h.pptr], ?_⟩
  · simp only [OutBuf.store, h.vec, h.pptr, List.length_append, List.length_singleton]
    rw [List.set_append_right _ _ (Nat.le_refl _), List.drop_eq_getElem_cons hl, Nat.sub_self, List.set_cons_zero]
    simp
  · simp only [OutBuf.store, h.epptr, List.length_append, List.length_singleton]
    omega

theorem At.overflow {old w : List UInt8} {b : OutBuf} (h : At old w b) (c : UInt8) (hr : ¬ b.pptr < b.epptr) :
    At old (w ++ [c]) (b.overflow c).2 := by
  have hl : old.length ≤ w.length := by
    have := h.pptr; have := h.epptr; omega
  have hv : b.vec = w := by rw [h.vec, List.drop_eq_nil_of_le hl]; simp
  have hd : old.drop (w.length + 1) = [] := List.drop_eq_nil_of_le (by omega)
  refine ⟨?_, by simp [OutBuf.overflow, OutBuf.store, hv], ?_⟩
  · simp [OutBuf.overflow, OutBuf.store, hv, hd]
  · simp only [OutBuf.overflow, OutBuf.store, hv, List.length_append, List.length_singleton]
    omega

theorem At.sputc {old w : List UInt8} {b : OutBuf} (h : At old w b) (c : UInt8) : At old (w ++ [c]) (b.sputc c).2 := by
  simp only [OutBuf.sputc]
  split
  · exact h.store c ‹_›
  · exact h.overflow c ‹_›

theorem At.copyIn {old : List UInt8} (l : List UInt8) : ∀ {w : List UInt8} {b : OutBuf}, At old w b →
    b.pptr + l.length ≤ b.epptr → At old (w ++ l) (OutBuf.copyIn l b) := by
  induction l with
  | nil => intro w b h _; simpa [OutBuf.copyIn] using h
  | cons c l ih =>
    intro w b h hr
    rw [List.length_cons] at hr
    have h1 := h.store c (by omega)
    have := ih h1 (by simp only [OutBuf.store]; omega)
    simpa [OutBuf.copyIn] using this

theorem At.xsputn {old : List UInt8} : ∀ (n : Nat) (l : List UInt8) {w : List UInt8} {b : OutBuf}, l.length < n → At old w b →
    (OutBuf.xsputn n l b).1 = l.length ∧ At old (w ++ l) (OutBuf.xsputn n l b).2 := by
  intro n
  induction n with
  | zero => intro l w b hn; omega
  | succ n ih =>
    intro l w b hn h
    simp only [OutBuf.xsputn]
    generalize hlen : min (b.epptr - b.pptr) l.length = len
    have hc := h.copyIn (l.take len) (by
      have := h.pptr; have := h.epptr
      rw [List.length_take]; omega)
    cases hd : l.drop len with
    | nil =>
      have : l.length ≤ len := by simpa using hd
      rw [List.take_of_length_le this] at hc ⊢
      refine ⟨?_, hc⟩
      show len = l.length
      omega
    | cons c l' =>
      have hll : l.length = len + 1 + l'.length := by
        have := congrArg List.length hd
        rw [List.length_drop, List.length_cons] at this
        omega
      have hfull : ¬ (OutBuf.copyIn (l.take len) b).pptr < (OutBuf.copyIn (l.take len) b).epptr := by
        have h1 := hc.pptr; have h2 := hc.epptr; have h3 := h.pptr; have h4 := h.epptr
        rw [List.length_append, List.length_take] at h1 h2
        omega
      obtain ⟨i1, i2⟩ := ih l' (by omega) (hc.overflow c hfull)
      refine ⟨by simp only [i1]; omega, ?_⟩
      have : w ++ l = w ++ l.take len ++ [c] ++ l' := by
        rw [List.append_assoc, List.append_assoc, List.singleton_append, ← hd, List.take_append_drop]
      rw [this]
      exact i2

theorem At.exec {old w : List UInt8} {b : OutBuf} (h : At old w b) (o : Op) :
    (OutBuf.exec o b).1 = o.bytes.length ∧ At old (w ++ o.bytes) (OutBuf.exec o b).2 := by
  cases o with
  | put c => exact ⟨rfl, h.sputc c⟩
  | write l => exact h.xsputn _ _ (Nat.lt_succ_self _)

theorem At.run {old : List UInt8} (os : List Op) : ∀ {w : List UInt8} {b : OutBuf}, At old w b →
    At old (w ++ os.flatMap Op.bytes) (OutBuf.run os b) := by
  induction os with
  | nil => intro w b h; simpa [OutBuf.run] using h
  | cons o os ih =>
    intro w b h
    have := ih (h.exec o).2
    simpa [OutBuf.run, List.append_assoc] using this

end OutBuf

namespace InBuf

theorem run_gptr (os : List Op) : ∀ (b : InBuf), b.gptr ≤ b.data.length →
    (run os b).2.data = b.data ∧ (run os b).2.gptr = min (b.gptr + (os.map Op.asked).sum) b.data.length := by
  induction os with
  | nil => intro b h; exact ⟨rfl, by simp only [run, List.map_nil, List.sum_nil]; omega⟩
  | cons o os ih =>
    intro b h
    have key : (exec o b).2.data = b.data ∧ (exec o b).2.gptr = min (b.gptr + o.asked) b.data.length := by
      cases o with
      | peek => exact ⟨rfl, by simp only [exec, Op.asked]; omega⟩
      | get =>
        simp only [exec, sbumpc, Op.asked]
        split
        · exact ⟨rfl, by simp only; omega⟩
        · exact ⟨rfl, by simp only; omega⟩
      | read n => exact ⟨rfl, by simp only [exec, xsgetn, Op.asked]; omega⟩
    obtain ⟨k1, k2⟩ := key
    obtain ⟨i1, i2⟩ := ih (exec o b).2 (by rw [k1, k2]; omega)
    simp only [run, List.map_cons, List.sum_cons]
    rw [i1, i2, k1, k2]
    exact ⟨rfl, by omega⟩

theorem run_append (os os' : List Op) : ∀ b : InBuf,
    run (os ++ os') b = ((run os b).1 ++ (run os' (run os b).2).1, (run os' (run os b).2).2) := by
  induction os with
  | nil => intro b; rfl
  | cons o os ih => intro b; simp only [List.cons_append, run, ih]

end InBuf
end Verif
