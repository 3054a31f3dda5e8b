import Verif.Lemmas.Binary
/-! # C50: binary buffers return exactly the bytes written -/

namespace Verif

/-- However the bytes are divided into single puts and block writes: an empty vector contains exactly the bytes afterwards, and
every call reports that it wrote all of its bytes (no byte value is taken for end of file). -/
theorem C50_written (os : List OutBuf.Op) :
    (OutBuf.run os (OutBuf.new [])).vec = os.flatMap OutBuf.Op.bytes ∧
    ∀ o, (OutBuf.exec o (OutBuf.run os (OutBuf.new []))).1 = o.bytes.length := by
  have h := (OutBuf.At.start []).run os
  exact ⟨by simpa using h.vec, fun o => (h.exec o).1⟩

/-- Reading, in whatever portions: after the calls `os` the next call gets the bytes after those asked for so far, as many as it
asks for if there are enough, otherwise the rest; `get` and `peek` get nothing exactly when all bytes were read. -/
theorem C50_read (data : List UInt8) (os : List InBuf.Op) (o : InBuf.Op) :
    (InBuf.run (os ++ [o]) (InBuf.new data)).1 = (InBuf.run os (InBuf.new data)).1 ++
      [(data.drop (os.map InBuf.Op.asked).sum).take (match o with | .peek => 1 | .get => 1 | .read n => n)] := by
  obtain ⟨h1, h2⟩ := InBuf.run_gptr os (InBuf.new data) (Nat.zero_le _)
  rw [InBuf.run_append]
  generalize hb : (InBuf.run os (InBuf.new data)).2 = b at h1 h2
  simp only [InBuf.new, Nat.zero_add] at h1 h2
  generalize hn : (os.map InBuf.Op.asked).sum = n at h2
  have hdrop : data.drop b.gptr = data.drop n := by
    rw [h2]
    by_cases hle : n ≤ data.length
    · rw [Nat.min_eq_left hle]
    · rw [Nat.min_eq_right (by omega), List.drop_eq_nil_of_le (by omega), List.drop_eq_nil_of_le (by omega)]
  have hone : (if b.gptr < b.data.length then b.data[b.gptr]? else none).toList = (data.drop n).take 1 := by
    rw [← hdrop, h1]
    split
    · rename_i hlt
      rw [List.drop_eq_getElem_cons hlt, List.getElem?_eq_getElem hlt]
      rfl
    · rw [List.drop_eq_nil_of_le (by omega)]
      rfl
  congr 1
  cases o with
  | peek => simpa [InBuf.run, InBuf.exec, InBuf.sgetc] using hone
  | get =>
    simp only [InBuf.run, InBuf.exec, InBuf.sbumpc]
    rw [← hone]
    split <;> rfl
  | read k =>
    simp only [InBuf.run, InBuf.exec, InBuf.xsgetn, h1]
    rw [hdrop]
    refine congrArg (fun x => _ ++ [x]) ?_
    rw [List.take_eq_take_iff, List.length_drop]
    omega

/-- Both together: reading back everything gives exactly what was written and then end of file. -/
theorem C50_round_trip (os : List OutBuf.Op) (n : Nat) :
    let data := os.flatMap OutBuf.Op.bytes
    (InBuf.run [.read data.length, .get, .read n, .peek] (InBuf.new (OutBuf.run os (OutBuf.new [])).vec)).1 = [data, [], [], []] := by
  intro data
  rw [(C50_written os).1]
  have h1 := C50_read data [] (.read data.length)
  have h2 := C50_read data [.read data.length] .get
  have h3 := C50_read data [.read data.length, .get] (.read n)
  have h4 := C50_read data [.read data.length, .get, .read n] .peek
  simp only [List.nil_append, List.cons_append] at h1 h2 h3 h4
  rw [h4, h3, h2, h1]
  simp [InBuf.run, InBuf.Op.asked, List.drop_eq_nil_of_le]

/-- The vector is not cleared: in a vector that was not empty, old bytes beyond the written ones stay (so `saveToBinary` into a
used vector leaves a tail of the old content). -/
theorem C50_used_vector (old : List UInt8) (os : List OutBuf.Op) :
    (OutBuf.run os (OutBuf.new old)).vec = os.flatMap OutBuf.Op.bytes ++ old.drop (os.flatMap OutBuf.Op.bytes).length := by
  simpa using ((OutBuf.At.start old).run os).vec

/-- all ones is not taken for end of file -/
example : (OutBuf.run [.put 255, .write [1, 255, 0], .write [], .put 7] (OutBuf.new [])).vec = [255, 1, 255, 0, 7] := by decide

example : (InBuf.run [.peek, .get, .read 3, .read 5, .get] (InBuf.new [255, 1, 255, 0, 7])).1 =
    [[255], [255], [1, 255, 0], [7], []] := by decide

example : (OutBuf.run [.put 1, .write [2, 3]] (OutBuf.new [9, 8, 7, 6, 5])).vec = [1, 2, 3, 6, 5] := by decide

/-- the last byte can be got; a write reports all its bytes, also those for which the vector grows -/
example : (InBuf.run [.get, .get, .get] (InBuf.new [255, 7])).1 = [[255], [7], []] ∧
    (OutBuf.exec (.write [1, 2, 3, 4]) (OutBuf.new [9, 9])).1 = 4 := by decide

end Verif
