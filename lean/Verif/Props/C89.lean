import Verif.Props.C53
import Verif.Props.C79
import Verif.Lemmas.FilesLeft
import Verif.Spec.DemoCodec
set_option linter.unusedSectionVars false
/-! # C89: file operations succeed or change nothing

`saveToFile` and `loadFromFile` are documented to throw if something goes wrong (EnvireGraph.hpp:217-230). -/

namespace Verif
open EG Blob
variable {D E : Type} [EdgeProp E]

/-- The property.  (1) `saveToFile` returns normally only if the file contains the whole graph; if it throws, all files are as before.
(2) If `loadFromFile` throws, the graph is as before.  (3) Writing a drawing to a file returns normally only if the file contains it. -/
def C89_statement : Prop := ∀ (C : Codec Nat Int), C.Lawful → ∀ (d : Disk) (path : String),
  (∀ R heap g d', (Disk.saveToFile C R heap g path d = .ok () d' →
      ∃ w, OArchive.saveGraph R heap g OArchive.new = .ok () w ∧ d'.files.get path = some (bytesOf C w.out)) ∧
    ∀ x, Disk.saveToFile C R heap g path d = .throw x d' → d'.files = d.files) ∧
  (∀ H off dflt (s s' : EG Int) x, EG.loadFile C H off dflt path d s = .throw x s' → s'.gs = s.gs) ∧
  (∀ bytes text d', path ≠ "" → Disk.writeDrawing bytes text path d = .ok [] d' → d'.files.get path = some (bytes text))

/-- `saveToFile` returns normally exactly if the file can be opened and the whole graph fits on the disk; then the file contains exactly
the graph and all other files are as before. -/
theorem C89_saved_partial {C : Codec D E} {R : Registry} {heap : ItemId → SObj D} {g : G EFrame E} {path : String} {d d' : Disk} :
    Disk.saveToFile C R heap g path d = .ok () d' ↔
      d.canWrite path = true ∧ ∃ w, OArchive.saveGraph R heap g OArchive.new = .ok () w ∧ (bytesOf C w.out).length ≤ d.room ∧
        d' = { d with files := d.files.set path (bytesOf C w.out) } := by
  unfold Disk.saveToFile
  by_cases hw : d.canWrite path = true
  · rw [if_pos hw]
    cases h : OArchive.saveGraph R heap g OArchive.new with
    | throw x w => simp
    | ub m => simp
    | ok u w =>
      simp only
      by_cases hl : (bytesOf C w.out).length ≤ d.room
      · have hl' : (C.header ++ w.out.flatMap C.enc).length ≤ d.room := hl
        rw [if_pos hl']
        simp only [Disk.put, List.take_of_length_le hl', Res.ok.injEq, true_and]
        constructor
        · rintro rfl; exact ⟨hw, w, rfl, hl, rfl⟩
        · rintro ⟨-, w', rfl, -, rfl⟩; rfl
      · have hl' : ¬ (C.header ++ w.out.flatMap C.enc).length ≤ d.room := hl
        rw [if_neg hl']
        constructor
        · intro h; cases h
        · rintro ⟨-, w', e, hl2, -⟩
          obtain rfl : w = w' := by simpa using e
          exact absurd hl2 hl
  · rw [if_neg hw]
    constructor
    · intro h; cases h
    · rintro ⟨h, -⟩; exact absurd h hw

/-- A file that cannot be opened: an exception, and nothing changes. -/
theorem C89_save_open {C : Codec D E} {R : Registry} {heap : ItemId → SObj D} {g : G EFrame E} {path : String} {d : Disk}
    (h : d.canWrite path = false) : ∃ x, Disk.saveToFile C R heap g path d = .throw x d := by
  refine ⟨.runtimeError "ios_base::failure", ?_⟩
  simp [Disk.saveToFile, h]

/-- If saving stops with an exception half-way (an item that cannot be saved behind one that can), the exception is passed on and the old
file is gone: the file contains what was written before, as far as there is room. -/
theorem C89_save_throws {C : Codec D E} {R : Registry} {heap : ItemId → SObj D} {g : G EFrame E} {path : String} {d : Disk} {x : Exn}
    {w : OArchive D E} (ho : d.canWrite path = true) (hw : OArchive.saveGraph R heap g OArchive.new = .throw x w) :
    Disk.saveToFile C R heap g path d = .throw x { d with files := d.files.set path ((bytesOf C w.out).take d.room) } := by
  simp only [Disk.saveToFile, ho, if_true, hw]
  rfl

/-- an item list with an item of another class behind the first one -/
example : (match Disk.saveToFile DemoCodec.codec ⟨fun t => if t = 1 then some "!" else none, fun _ => true⟩
      (fun i => ⟨if i = 0 then 1 else 2, 0, 0, "", 5⟩) ⟨[⟨0, 0, ⟨"#", [(1, [0, 1])]⟩⟩], [], [("#", 0)], 1, 0, 1⟩ "f"
      ⟨[("f", [1, 2, 3])], fun _ => true, fun _ => true, 1000⟩ with
    | .throw x d => some (x, (d.files.get "f").map (fun b => decide (b = [1, 2, 3])))
    | _ => none) = some (.runtimeError "Failed to serialize an item", some false) := by decide +kernel

/-- This never happens to a graph made by calls of the library: there `saveToFile` returns normally if the file can be opened and there is
enough room, and throws otherwise. -/
theorem C89_save_reachable (C : Codec D E) (R : Registry) (heap : ItemId → SObj D) (h0 : ItemId → ItemObj) (cs : List (EG.Cmd E)) {s : EG E}
    (hs : EG.run cs (EG.init h0) = some s) (hh : ∀ i, (heap i).item = s.heap i)
    (hcs : ∀ f p, EG.Cmd.graph (.emplaceFrame f p) ∈ cs → C51_Map heap p.items) :
    ∃ w, OArchive.saveGraph R heap s.gs.g OArchive.new = .ok () w ∧ ∀ path d,
      (d.canWrite path = true → (bytesOf C w.out).length ≤ d.room →
        Disk.saveToFile C R heap s.gs.g path d = .ok () { d with files := d.files.set path (bytesOf C w.out) }) ∧
      (d.canWrite path = false ∨ d.room < (bytesOf C w.out).length → ∃ x d', Disk.saveToFile C R heap s.gs.g path d = .throw x d') := by
  obtain ⟨w, -, -, -, hw, -⟩ := C53_round_trip R (fun _ => true) (fun _ _ => rfl) heap h0 h0 cs hs hh hcs
  refine ⟨w, hw, fun path d => ⟨fun ho hr => C89_saved_partial.2 ⟨ho, w, hw, hr, rfl⟩, ?_⟩⟩
  intro hc
  cases ho : d.canWrite path with
  | false => obtain ⟨x, hx⟩ := C89_save_open (C := C) (R := R) (heap := heap) (g := s.gs.g) ho; exact ⟨x, d, hx⟩
  | true =>
    have hr : d.room < (bytesOf C w.out).length := hc.resolve_left (by simp [ho])
    have : ¬ (C.header ++ w.out.flatMap C.enc).length ≤ d.room := by
      show ¬ (bytesOf C w.out).length ≤ d.room
      omega
    simp only [Disk.saveToFile, ho, if_true, hw, if_neg this]
    exact ⟨_, _, rfl⟩

/-- What a saved file gives: any graph that reads it ends in the state described by C79 (for a new graph: by C53). -/
theorem C89_load_saved {C : Codec D E} (hC : C.Lawful) {H : String → Bool} {off : Nat} (dflt : E) {path : String} {d : Disk}
    {ts : List (Tok D E)} (hr : d.canRead path = true) (hd : d.files.get path = some (bytesOf C ts)) {s s' : EG E} {a : IArchive D E}
    (h : EG.loadFromFile H off ts s = .ok s' a) : EG.loadFile C H off dflt path d s = .ok () s' := by
  obtain ⟨m, hm⟩ := tokens_append hC ts (ts.flatMap C.enc).length [] (Nat.le_refl _)
  rw [List.append_nil] at hm
  have ht : tokens C m [] = [] := by cases m <;> simp [tokens, dec_nil hC]
  rw [ht, List.append_nil] at hm
  unfold EG.loadFromFile at h
  cases h1 : IArchive.loadGraphInto H off s.gs.g (IArchive.new ts) with
  | throw x b => rw [h1] at h; cases h
  | ub m => rw [h1] at h; cases h
  | ok g b =>
    rw [h1] at h
    cases h
    have h2 := IArchive.loadGraphT_ok dflt h1
    simp only [EG.loadFile, hr, hd, bytesOf, openArchive_eq, hm, h2]

private theorem file_reads {H : String → Bool} {ts : List (Tok D E)} (hf : C79_File H ts) (off : Nat) (dflt : E) (g0 : G EFrame E) :
    ∃ o g, IArchive.loadGraphT H off dflt g0 ⟨ts, []⟩ = .ok ⟨[], o⟩ g := by
  obtain ⟨R, heap, h0, cs, s, w, hH, hs, hh, hcs, h1, rfl⟩ := hf
  obtain ⟨w', g, a, ρ, h1', h2, h3, -⟩ := C53_round_trip R H hH heap h0 h0 cs hs hh hcs
  obtain rfl : w = w' := by rw [h1] at h1'; simpa using h1'
  have := IArchive.loadGraphT_ok dflt (IArchive.loadGraphInto_eq (off := off) g0 h2)
  obtain ⟨ts', os⟩ := a
  simp only at h3
  subst h3
  exact ⟨os, _, this⟩

/-- A saved file that was cut off anywhere is noticed: `loadFromFile` throws, whatever graph it is called for. -/
theorem C89_cut {C : Codec D E} (hC : C.Lawful) {H : String → Bool} {off : Nat} (dflt : E) {path : String} {d : Disk} {ts : List (Tok D E)}
    (hf : C79_File H ts) {p q : List UInt8} (hd : d.files.get path = some p) (hp : bytesOf C ts = p ++ q) (hq : q ≠ []) (s : EG E) :
    ∃ x s', EG.loadFile C H off dflt path d s = .throw x s' := by
  unfold EG.loadFile
  rw [hd]
  cases d.canRead path with
  | false => exact ⟨_, _, rfl⟩
  | true =>
    by_cases hh : C.header <+: p
    · obtain ⟨r, rfl⟩ := hh
      rw [bytesOf, List.append_assoc, List.append_cancel_left_eq] at hp
      obtain ⟨k, hlt, he⟩ := tokens_cut hC ts r.length r q (Nat.le_refl _) hp hq
      simp only [openArchive_eq, he, IArchive.new]
      obtain ⟨o, g, h1⟩ := file_reads hf off dflt s.gs.g
      rw [← List.take_append_drop k ts] at h1
      obtain ⟨x, g', h2⟩ := (MonoG.loadGraphT H off dflt s.gs.g).cut h1 (by simp [hlt])
      rw [h2]
      exact ⟨_, _, rfl⟩
    · obtain ⟨x, hx⟩ := openArchive_alien C hh
      simp only [hx]
      exact ⟨_, _, rfl⟩

/-- So when the disk is full, `saveToFile` throws; what was in the file before is lost, and what is there now cannot be loaded. -/
theorem C89_full {C : Codec D E} (hC : C.Lawful) {R : Registry} {heap : ItemId → SObj D} {g : G EFrame E} {path : String} {d : Disk}
    {w : OArchive D E} (hw : OArchive.saveGraph R heap g OArchive.new = .ok () w) (ho : d.canWrite path = true)
    (hr : d.room < (bytesOf C w.out).length) :
    ∃ x d', Disk.saveToFile C R heap g path d = .throw x d' ∧ d'.files.get path = some ((bytesOf C w.out).take d.room) ∧
      ∀ H off (dflt : E) s, C79_File H w.out → ∃ x s', EG.loadFile C H off dflt path d' s = .throw x s' := by
  refine ⟨.runtimeError "archive_exception or ios_base::failure", d.put path (bytesOf C w.out), ?_, ?_, ?_⟩
  · have : ¬ (C.header ++ w.out.flatMap C.enc).length ≤ d.room := by
      show ¬ (bytesOf C w.out).length ≤ d.room
      omega
    simp only [Disk.saveToFile, ho, if_true, hw, if_neg this]
    rfl
  · simp [Disk.put]
  · intro H off dflt s hf
    refine C89_cut hC dflt hf (p := (bytesOf C w.out).take d.room) (q := (bytesOf C w.out).drop d.room) ?_ (List.take_append_drop _ _).symm ?_ s
    · simp [Disk.put]
    · simpa using hr

/-- Loading from a file that is not there, cannot be opened or is no archive: an exception, and the graph is as before. -/
theorem C89_load_open {C : Codec D E} {H : String → Bool} {off : Nat} {dflt : E} {path : String} {d : Disk} {s : EG E}
    (h : d.canRead path = false ∨ ∀ b, d.files.get path = some b → ¬ C.header <+: b) :
    ∃ x, EG.loadFile C H off dflt path d s = .throw x s := by
  unfold EG.loadFile
  cases hr : d.canRead path with
  | false => exact ⟨_, rfl⟩
  | true =>
    cases hb : d.files.get path with
    | none => exact ⟨_, rfl⟩
    | some b =>
      rcases h with h | h
      · rw [hr] at h; cases h
      · obtain ⟨x, hx⟩ := openArchive_alien C (h b hb)
        exact ⟨x, by simp only [hx]⟩

/-- What a load that throws leaves, whatever the bytes were: the vertices and edges that the graph had are still there, every name means the
same vertex as before, no event was published and the views are untouched; but there may be more vertices, and no name means one of them. -/
theorem C89_load_throws_partial {C : Codec D E} {H : String → Bool} {off : Nat} {dflt : E} {path : String} {d : Disk}
    {h0 : ItemId → ItemObj} {cs : List (EG.Cmd E)} {s s' : EG E} {x : Exn} (hs : EG.run cs (EG.init h0) = some s)
    (h : EG.loadFile C H off dflt path d s = .throw x s') :
    (∀ f, GS.containsFrame f s'.gs = GS.containsFrame f s.gs) ∧
    (∀ f v, GS.getVertex f s'.gs = .ok v s'.gs ↔ GS.getVertex f s.gs = .ok v s.gs) ∧
    (∃ l, GS.getVertices s'.gs = GS.getVertices s.gs ++ l ∧ ∀ v ∈ l, ∀ f, GS.getVertex f s'.gs ≠ .ok v s'.gs) ∧
    s.gs.g.edges <+: s'.gs.g.edges ∧ s'.gs.trace = s.gs.trace ∧ s'.gs.views = s.gs.views ∧ s'.gs.subs = s.gs.subs ∧ s'.heap = s.heap := by
  have hG : ∃ g, s' = ⟨{ s.gs with g := g }, s.heap⟩ ∧ Grown s.gs.g g := by
    unfold EG.loadFile at h
    cases hr : d.canRead path with
    | false => rw [hr] at h; cases h; exact ⟨_, rfl, Grown.refl _⟩
    | true =>
      cases hb : d.files.get path with
      | none => rw [hr, hb] at h; cases h; exact ⟨_, rfl, Grown.refl _⟩
      | some b =>
        rw [hr, hb] at h
        simp only at h
        cases h1 : openArchive C b with
        | throw y b => rw [h1] at h; cases h; exact ⟨_, rfl, Grown.refl _⟩
        | ub m => rw [h1] at h; cases h
        | ok a b =>
          rw [h1] at h
          simp only at h
          cases h2 : IArchive.loadGraphT H off dflt s.gs.g a with
          | ok a g => rw [h2] at h; cases h
          | ub m => rw [h2] at h; cases h
          | throw y g => rw [h2] at h; cases h; exact ⟨g, rfl, Grown.loadGraphT h2⟩
  obtain ⟨g, rfl, hg⟩ := hG
  have hw : WF s.gs.g := EG.run_wf hs
  have hv : ∀ f, g.vertexOf f = s.gs.g.vertexOf f := fun f => by simp only [G.vertexOf, hg.labels]
  obtain ⟨l, e, hl⟩ := hg.verts
  refine ⟨fun f => ?_, fun f v => ?_, ⟨l.map VRec.id, ?_, ?_⟩, hg.edges, rfl, rfl, rfl, rfl⟩
  · simp only [GS.containsFrame, hv]
  · simp only [GS.getVertex, hv]
    cases s.gs.g.vertexOf f <;> simp
  · simp only [GS.getVertices, e, List.map_append]
  · intro v hm f hf
    obtain ⟨r, hr, rfl⟩ := List.mem_map.1 hm
    simp only [GS.getVertex, hv] at hf
    cases hx : s.gs.g.vertexOf f with
    | none => rw [hx] at hf; cases hf
    | some u =>
      rw [hx] at hf
      simp only [Res.ok.injEq, and_true] at hf
      subst hf
      obtain ⟨q, hq, hqe⟩ := hw.live hx
      have h1 := hw.vlt q hq
      have h2 := hl r hr
      rw [hqe] at h1
      exact absurd h1 (Nat.not_lt.2 h2)

/-- What exactly is left of a saved file that was cut off, compared with the graph that the whole file gives (`d1`).  One of three cases: the
graph is as before; or the vertices in front of the cut are there with the same content, behind them one vertex without items whose name is
empty or right, and no edges; or all vertices are there, and of the edges those in front of the cut, behind them at most one edge between the
right vertices that has the default property. -/
theorem C89_left {C : Codec D E} (hC : C.Lawful) {H : String → Bool} {off : Nat} {dflt : E} {path : String} {d d1 : Disk} {ts : List (Tok D E)}
    (hf : C79_File H ts) (hr1 : d1.canRead path = true) (hd1 : d1.files.get path = some (bytesOf C ts)) {p q : List UInt8}
    (hd : d.files.get path = some p) (hp : bytesOf C ts = p ++ q) {s s' : EG E} {x : Exn}
    (h : EG.loadFile C H off dflt path d s = .throw x s') :
    ∃ s1, EG.loadFile C H off dflt path d1 s = .ok () s1 ∧
      (s' = s ∨
      (s'.gs.g.edges = s.gs.g.edges ∧ ∃ l1 r l2 fr, s1.gs.g.verts = s.gs.g.verts ++ l1 ++ r :: l2 ∧
        s'.gs.g.verts = s.gs.g.verts ++ l1 ++ [⟨r.id, r.idx, fr⟩] ∧ fr.items = [] ∧ (fr.id = "" ∨ fr.id = r.prop.id)) ∨
      (s'.gs.g.verts = s1.gs.g.verts ∧ ∃ l1 e l2, s1.gs.g.edges = s.gs.g.edges ++ l1 ++ e :: l2 ∧
        (s'.gs.g.edges = s.gs.g.edges ++ l1 ∨ s'.gs.g.edges = s.gs.g.edges ++ l1 ++ [{ e with prop := dflt }]))) := by
  obtain ⟨o, g1, h1⟩ := file_reads hf off dflt s.gs.g
  have hfull : tokens C (ts.flatMap C.enc).length (ts.flatMap C.enc) = ts := by
    obtain ⟨m, hm⟩ := tokens_append hC ts (ts.flatMap C.enc).length [] (by simp)
    rw [List.append_nil] at hm
    have ht : tokens C m [] = [] := by cases m <;> simp [tokens, dec_nil hC]
    rw [ht, List.append_nil] at hm
    exact hm
  refine ⟨⟨{ s.gs with g := g1 }, EG.heapAfter off s.heap o⟩, ?_, ?_⟩
  · simp only [EG.loadFile, hr1, hd1, bytesOf, openArchive_eq, hfull, IArchive.new, h1]
  · unfold EG.loadFile at h
    rw [hd] at h
    cases hr : d.canRead path with
    | false => rw [hr] at h; cases h; exact .inl rfl
    | true =>
      rw [hr] at h
      simp only at h
      by_cases hh : C.header <+: p
      · obtain ⟨r, rfl⟩ := hh
        rw [bytesOf, List.append_assoc, List.append_cancel_left_eq] at hp
        simp only [openArchive_eq, IArchive.new] at h
        by_cases hq : q = []
        · subst hq
          rw [List.append_nil] at hp
          rw [← hp, hfull, h1] at h
          cases h
        · obtain ⟨k, hlt, he⟩ := tokens_cut hC ts r.length r q (Nat.le_refl _) hp hq
          rw [he] at h
          rw [← List.take_append_drop k ts] at h1
          cases h2 : IArchive.loadGraphT H off dflt s.gs.g ⟨ts.take k, []⟩ with
          | ok a g => rw [h2] at h; cases h
          | ub m => rw [h2] at h; cases h
          | throw y g =>
            rw [h2] at h
            cases h
            rcases IArchive.left_graph h1 h2 with e | e | e
            · subst e; exact .inl rfl
            · exact .inr (.inl e)
            · exact .inr (.inr e)
      · obtain ⟨y, hx⟩ := openArchive_alien C hh
        simp only [hx] at h
        cases h
        exact .inl rfl

/-- C89 is false for every saved graph with at least one frame: if the file was cut off anywhere after the two numbers at its start, loading it
leaves vertices in the graph that were not there before. -/
theorem C89_cut_fails {C : Codec D E} (hC : C.Lawful) {H : String → Bool} {off : Nat} {dflt : E} {path : String} {d : Disk} {ts : List (Tok D E)}
    {n k : Nat} (hf : C79_File H (.size n :: .size k :: ts)) (hn : 0 < n) (hr : d.canRead path = true) {p q : List UInt8}
    (hd : d.files.get path = some (bytesOf C [Tok.size (D := D) (E := E) n, .size k] ++ p)) (hp : ts.flatMap C.enc = p ++ q) (hq : q ≠ []) (s : EG E) :
    ∃ x s', EG.loadFile C H off dflt path d s = .throw x s' ∧ GS.numVertices s.gs < GS.numVertices s'.gs := by
  obtain ⟨m, hm⟩ := tokens_append hC [Tok.size (D := D) (E := E) n, .size k]
    ([Tok.size (D := D) (E := E) n, .size k].flatMap C.enc ++ p).length p (by simp)
  have hcut : ∃ j', tokens C m p = ts.take j' ∧ j' < ts.length := by
    obtain ⟨j, h1, h2⟩ := tokens_cut hC (.size n :: .size k :: ts) ([Tok.size (D := D) (E := E) n, .size k].flatMap C.enc ++ p).length
      ([Tok.size (D := D) (E := E) n, .size k].flatMap C.enc ++ p) q (Nat.le_refl _) (by simp [hp]) hq
    rw [hm] at h2
    match j, h1, h2 with
    | 0, _, h2 => simp at h2
    | 1, _, h2 => simp at h2
    | j + 2, h1, h2 => exact ⟨j, by simpa using h2, by simpa using h1⟩
  obtain ⟨j', hj, hj'⟩ := hcut
  obtain ⟨o, g, h1⟩ := file_reads hf off dflt s.gs.g
  have h1' : IArchive.loadGraphT H off dflt s.gs.g ⟨(.size n :: .size k :: ts.take j') ++ ts.drop j', []⟩ = .ok ⟨[], o⟩ g := by
    simpa using h1
  obtain ⟨x, g', h2⟩ := (MonoG.loadGraphT H off dflt s.gs.g).cut h1' (by simp [hj'])
  refine ⟨x, ⟨{ s.gs with g := g' }, s.heap⟩, ?_, ?_⟩
  · simp only [EG.loadFile, hr, hd, bytesOf, List.append_assoc, openArchive_eq, hm, hj, IArchive.new]
    simp only [List.cons_append, List.nil_append, h2]
  · exact Grown.more hn h2

/-! Concrete data: the file of C79's demo (frames a and b, one edge each way, one item). -/

private def dHeap89 (i : ItemId) : SObj Nat := ⟨7, 2, i, "a", 1⟩
private def dSource : EG Int :=
  ((EG.run [.graph (.addEdge "a" "b" 1), .addItemToFrame "a" 1] (EG.init (fun i => (dHeap89 i).item))).getD (EG.init (fun _ => ⟨0, ""⟩)))
private def dDisk (room : Nat) : Disk := ⟨[("f", [1, 2, 3])], fun _ => true, fun p => p ≠ "ro", room⟩
/-- the disk after saving, and whether it threw -/
private def dSave (room : Nat) (path : String) : Disk × Bool :=
  match Disk.saveToFile DemoCodec.codec C79_reg dHeap89 dSource.gs.g path (dDisk room) with
  | .ok _ d => (d, false)
  | .throw _ d => (d, true)
  | .ub _ => (dDisk 0, true)
/-- names of the vertices and names in the map after loading the file, and whether it threw -/
private def dLoad (d : Disk) : Option (List String × List String × Bool) :=
  match EG.loadFile DemoCodec.codec (fun _ => true) 10 0 "f" d ((EG.run [.graph (.addFrame "c")] (EG.init (fun _ => ⟨7, "c"⟩))).getD dSource) with
  | .ok _ s => some (s.gs.g.verts.map (fun r => r.prop.id), ["a", "b", "c"].filter (fun f => GS.containsFrame f s.gs), false)
  | .throw _ s => some (s.gs.g.verts.map (fun r => r.prop.id), ["a", "b", "c"].filter (fun f => GS.containsFrame f s.gs), true)
  | .ub _ => none

/-- the file of the demo without its last `cut` bytes: the vertices with their items, and the edges with their property -/
private def dLeft (cut : Nat) : List (String × List (Nat × List Nat)) × List (Nat × Nat × Int) :=
  let b := ((dSave 5000 "f").1.files.get "f").getD []
  match EG.loadFile DemoCodec.codec (fun _ => true) 10 0 "f" ⟨[("f", b.take (b.length - cut))], fun _ => true, fun _ => true, 0⟩
    (EG.init (fun _ => ⟨7, "c"⟩)) with
  | .ok _ s => (s.gs.g.verts.map (fun r => (r.prop.id, r.prop.items)), s.gs.g.edges.map (fun e => (e.src, e.tgt, e.prop)))
  | .throw _ s => (s.gs.g.verts.map (fun r => (r.prop.id, r.prop.items)), s.gs.g.edges.map (fun e => (e.src, e.tgt, e.prop)))
  | .ub _ => ([], [])

example : dLeft 0 = ([("a", [(7, [10])]), ("b", [])], [(0, 1, 1), (1, 0, -1)]) ∧
    dLeft 10 = ([("a", [(7, [10])]), ("b", [])], [(0, 1, 1), (1, 0, 0)]) ∧
    dLeft 20 = ([("a", [(7, [10])]), ("b", [])], [(0, 1, 1)]) ∧ dLeft 120 = ([("a", [(7, [10])]), ("", [])], []) ∧
    dLeft 320 = ([("a", [])], []) ∧ dLeft 500 = ([], []) := by
  refine ⟨?_, ?_, ?_, ?_, ?_, ?_⟩ <;> decide +kernel

/-- enough room: everything is found; a name that cannot be opened: nothing happens -/
example : (dSave 5000 "f").2 = false ∧ dLoad (dSave 5000 "f").1 = some (["c", "a", "b"], ["a", "b", "c"], false) ∧
    (dSave 5000 "ro").2 = true ∧ (dSave 5000 "ro").1.files = [("f", [1, 2, 3])] := by
  decide +kernel

/-- 200 bytes: saving throws and the old content of the file is gone; loading what is left throws and leaves a vertex `a` that is not found -/
example : (dSave 200 "f").2 = true ∧ ((dSave 200 "f").1.files.get "f").map List.length = some 200 ∧
    dLoad (dSave 200 "f").1 = some (["c", "a"], ["c"], true) := by
  decide +kernel

/-- no archive: the graph is as before -/
example : dLoad (dDisk 0) = some (["c"], ["c"], true) := by decide +kernel

/-- a frame can be added once more after the failed load; then there are two vertices with its name -/
example : (match EG.loadFile DemoCodec.codec (fun _ => true) 10 0 "f" (dSave 200 "f").1 (EG.init (fun _ => ⟨7, "c"⟩)) with
    | .throw _ s => (EG.run [.graph (.addFrame "a")] s).map (fun s => s.gs.g.verts.map (fun r => r.prop.id))
    | _ => none) = some ["a", "a"] := by
  decide +kernel

/-- Part 1 is wrong: when the disk is full, the file is not as before. -/
theorem C89_save_fails : ∃ (d d' : Disk) (x : Exn), Disk.saveToFile DemoCodec.codec C79_reg dHeap89 dSource.gs.g "f" d = .throw x d' ∧
    d.files.get "f" = some [1, 2, 3] ∧ d'.files.get "f" = some [22, 10] := by
  obtain ⟨r, hr⟩ : ∃ r, r = Disk.saveToFile DemoCodec.codec C79_reg dHeap89 dSource.gs.g "f" (dDisk 2) := ⟨_, rfl⟩
  have h : (match r with | .throw _ d => d.files.get "f" | _ => none) = some [22, 10] := by rw [hr]; decide +kernel
  match r, h, hr with
  | .throw x d', h, hr => exact ⟨dDisk 2, d', x, hr.symm, rfl, h⟩

/-- Part 2 is wrong: the demo above, where a new graph has a vertex after a failed load. -/
theorem C89_load_fails : ∃ (d : Disk) (s' : EG Int) (x : Exn),
    EG.loadFile DemoCodec.codec (fun _ => true) 10 0 "f" d (EG.init (fun _ => ⟨7, "c"⟩)) = .throw x s' ∧
    GS.numVertices s'.gs = 1 ∧ ∀ f, GS.containsFrame f s'.gs = false := by
  obtain ⟨r, hr⟩ : ∃ r, r = EG.loadFile DemoCodec.codec (fun _ => true) 10 0 "f" (dSave 200 "f").1 (EG.init (fun _ => ⟨7, "c"⟩)) := ⟨_, rfl⟩
  have h : (match r with | .throw _ s => s.gs.g.verts.length | _ => 0) = 1 := by rw [hr]; decide +kernel
  match r, h, hr with
  | .throw x s', h, hr =>
    refine ⟨_, s', x, hr.symm, h, fun f => ?_⟩
    have := (C89_load_throws_partial (cs := []) (s := EG.init (fun _ => ⟨7, "c"⟩)) rfl hr.symm).1 f
    rw [this]
    rfl

/-- Part 3 is wrong for every name that cannot be opened: nothing is written and nobody is told.  The same when the disk is full. -/
theorem C89_draw_fails (bytes : List Char → List UInt8) (text : List Char) {path : String} {d : Disk} (hp : path ≠ "") :
    (d.canWrite path = false → Disk.writeDrawing bytes text path d = .ok [] d) ∧
    (d.canWrite path = true → Disk.writeDrawing bytes text path d = .ok [] (d.put path (bytes text)) ∧
      (d.put path (bytes text)).files.get path = some ((bytes text).take d.room)) := by
  refine ⟨fun h => ?_, fun h => ⟨?_, by simp [Disk.put]⟩⟩
  · simp [Disk.writeDrawing, hp, h]
  · simp [Disk.writeDrawing, hp, h]

/-- What holds of drawings: with no name the text goes to the standard output; with room and a name that can be opened it is in the file. -/
theorem C89_draw_partial (bytes : List Char → List UInt8) (text : List Char) (path : String) (d : Disk) :
    Disk.writeDrawing bytes text "" d = .ok text d ∧
    (path ≠ "" → d.canWrite path = true → (bytes text).length ≤ d.room →
      Disk.writeDrawing bytes text path d = .ok [] { d with files := d.files.set path (bytes text) }) := by
  refine ⟨rfl, fun hp h hl => ?_⟩
  simp [Disk.writeDrawing, hp, h, Disk.put, List.take_of_length_le hl]

example : Disk.writeDrawing (fun t => t.map (fun c => c.toNat.toUInt8)) ['h', 'i'] "ro" (dDisk 9) = .ok [] (dDisk 9) ∧
    (match Disk.writeDrawing (fun t => t.map (fun c => c.toNat.toUInt8)) ['h', 'i'] "g" (dDisk 9) with
      | .ok _ d => d.files | _ => []) = [("f", [1, 2, 3]), ("g", [104, 105])] := ⟨rfl, by decide +kernel⟩

/-- So the property does not hold. -/
theorem C89_fails : ¬ C89_statement := by
  intro h
  obtain ⟨d, s', x, h1, h2, -⟩ := C89_load_fails
  have := (h _ DemoCodec.lawful d "f").2.1 _ _ _ _ _ _ h1
  rw [this] at h2
  cases h2

/-- number of bytes of the saved graph -/
private def dSize : Nat := match OArchive.saveGraph C79_reg dHeap89 dSource.gs.g OArchive.new with
  | .ok _ w => (DemoCodec.codec.header ++ w.out.flatMap DemoCodec.codec.enc).length
  | _ => 0
/-- edges and items after loading the file -/
private def dEdges (d : Disk) : Option (List (VId × VId × Int) × List (List (TypeIdx × List ItemId))) :=
  match EG.loadFile DemoCodec.codec (fun _ => true) 10 0 "f" d ((EG.run [.graph (.addFrame "c")] (EG.init (fun _ => ⟨7, "c"⟩))).getD dSource) with
  | .ok _ s => some (s.gs.g.edges.map (fun e => (e.src, e.tgt, e.prop)), s.gs.g.verts.map (fun r => r.prop.items))
  | .throw _ s => some (s.gs.g.edges.map (fun e => (e.src, e.tgt, e.prop)), s.gs.g.verts.map (fun r => r.prop.items))
  | .ub _ => none

/-- exactly enough room, and one byte too little; then the second edge has the default property -/
example : (dSave dSize "f").2 = false ∧ (dSave (dSize - 1) "f").2 = true ∧
    dEdges (dSave dSize "f").1 = some ([(1, 2, 1), (2, 1, -1)], [[], [(7, [10])], []]) ∧
    dEdges (dSave (dSize - 1) "f").1 = some ([(1, 2, 1), (2, 1, 0)], [[], [(7, [10])], []]) := by
  refine ⟨?_, ?_, ?_, ?_⟩ <;> decide +kernel

/-- without a name the text is printed -/
example : Disk.writeDrawing (fun t => t.map (fun c => c.toNat.toUInt8)) ['h', 'i'] "" (dDisk 9) = .ok ['h', 'i'] (dDisk 9) := rfl

end Verif
