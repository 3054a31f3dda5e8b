import Verif.Lemmas.Transform
import Verif.Lemmas.Steps

set_option linter.unusedSectionVars false
set_option linter.unusedSimpArgs false
/-! Paths and transforms along paths. -/

namespace Verif
open GS
variable {F T : Type} [FrameProp F] [Group T]

section paths
variable {E : Type} [EdgeProp E]

theorem Joined.trans {s : GS F E} {a b c : FrameId} (h : Joined s a b) (h' : Joined s b c) : Joined s a c := by
  obtain ⟨l, hl⟩ := h
  obtain ⟨m, hm⟩ := h'
  match m, hm with
  | [], hm => simpa using hm.first
  | x :: m, hm =>
    have hx : x = b := by simpa using hm.first
    subst hx
    refine ⟨l ++ m, ?_, ?_, ?_⟩
    · rw [List.head?_append, hl.first]; rfl
    · cases m with
      | nil =>
        have := hm.last
        simp only [List.getLast?_singleton, Option.some.injEq] at this
        subst this
        simpa using hl.last
      | cons y m =>
        rw [List.getLast?_append]
        have := hm.last
        rw [List.getLast?_cons_cons] at this
        rw [this]; rfl
    · rw [List.isChain_append]
      refine ⟨hl.steps, (List.isChain_cons.1 hm.steps).2, ?_⟩
      intro p hp q hq
      rw [hl.last] at hp
      simp only [Option.mem_def, Option.some.injEq] at hp
      subst hp
      exact (List.isChain_cons.1 hm.steps).1 q hq

theorem Joined.refl (s : GS F E) (a : FrameId) : Joined s a a := ⟨[a], rfl, rfl, by simp⟩

theorem Joined.of_conn {s : GS F E} {a b : FrameId} (h : s.Conn a b) : Joined s a b :=
  ⟨[a, b], rfl, rfl, List.isChain_cons_cons.2 ⟨h, by simp⟩⟩

end paths

/-- path and product together -/
def Reaches (s : GS F (Tf T)) (a b : FrameId) (t : T) : Prop := ∃ l, IsPath s.Conn a b l ∧ Along s l t

theorem Along.append {s : GS F (Tf T)} {l : List FrameId} {t : T} (h : Along s l t) : ∀ {b : FrameId} {m : List FrameId} {t' : T},
    l.getLast? = some b → Along s (b :: m) t' → Along s (l ++ m) (t * t') := by
  induction h with
  | one a =>
    intro b m t' hb h'
    simp at hb
    subst hb
    simpa using h'
  | step he _ ih =>
    intro b m t' hb h'
    rw [List.getLast?_cons_cons] at hb
    rw [mul_assoc]
    exact .step he (ih hb h')

theorem Reaches.trans {s : GS F (Tf T)} {a b c : FrameId} {t t' : T} (h : Reaches s a b t) (h' : Reaches s b c t') :
    Reaches s a c (t * t') := by
  obtain ⟨l, hl, h1⟩ := h
  obtain ⟨m, hm, h2⟩ := h'
  match m, hm, h2 with
  | [], hm, h2 => simpa using hm.first
  | x :: m, hm, h2 =>
    have hx : x = b := by simpa using hm.first
    subst hx
    have h3 := h1.append hl.last h2
    refine ⟨l ++ m, ⟨?_, ?_, h3.isPath.2⟩, h3⟩
    · rw [List.head?_append, hl.first]; rfl
    · cases m with
      | nil =>
        have := hm.last
        simp only [List.getLast?_singleton, Option.some.injEq] at this
        subst this
        simpa using hl.last
      | cons y m =>
        rw [List.getLast?_append]
        have := hm.last
        rw [List.getLast?_cons_cons] at this
        rw [this]; rfl

theorem Reaches.one (s : GS F (Tf T)) (a : FrameId) : Reaches s a a 1 := ⟨[a], ⟨rfl, rfl, by simp⟩, .one a⟩

theorem Reaches.edge {s : GS F (Tf T)} {a b : FrameId} {p : Tf T} (h : getEdgeProperty a b s = .ok p s) : Reaches s a b p.pose := by
  refine ⟨[a, b], ⟨rfl, rfl, List.isChain_cons_cons.2 ⟨conn_of_edgeProperty.2 ⟨p, h⟩, by simp⟩⟩, ?_⟩
  simpa using Along.step h (.one b)

theorem Reaches.pose {s : GS F (Tf T)} {a b : FrameId} {t : T} (h : Reaches s a b t) {pose : FrameId → T} (hc : Consistent s pose) :
    t = (pose a)⁻¹ * pose b := by
  obtain ⟨l, h1, h2⟩ := h; exact h2.pose hc h1.first h1.last

theorem Reaches.joined {s : GS F (Tf T)} {a b : FrameId} {t : T} (h : Reaches s a b t) : Joined s a b := by
  obtain ⟨l, hl, -⟩ := h; exact ⟨l, hl⟩

/-- `getTransform` never has undefined behaviour; a result belongs to a path, and an exception means that there is none, or that a
frame or every edge is missing. -/
theorem getTransform_total {s : GS F (Tf T)} (hw : WF s.g) (a b : FrameId) :
    (∃ r, getTransform a b s = .ok r s ∧ Reaches s a b r.pose) ∨
    (∃ x, getTransform a b s = .throw x s ∧ (a ≠ b → ¬ Joined s a b)) := by
  cases ha : s.g.vertexOf a with
  | none =>
    refine Or.inr ⟨.unknownFrame a, by simp [getTransform, ha], ?_⟩
    intro hab hj
    have := (hj.edges hab).2.1
    simp [containsFrame, ha] at this
  | some u =>
    cases hb : s.g.vertexOf b with
    | none =>
      refine Or.inr ⟨.unknownFrame b, by simp [getTransform, ha, hb], ?_⟩
      intro hab hj
      have := (hj.edges hab).2.2
      simp [containsFrame, hb] at this
    | some v =>
      rcases getTransform_eq hw ha hb with ⟨h0, h1⟩ | ⟨p, h1, h2⟩ | ⟨-, -, h1, h2⟩ | ⟨-, -, l, t, h1, -, h2, h3⟩
      · exact Or.inr ⟨_, h1, fun hab hj => (hj.edges hab).1 h0⟩
      · exact Or.inl ⟨p, h2, .edge h1⟩
      · exact Or.inr ⟨_, h2, fun _ => h1⟩
      · exact Or.inl ⟨_, h3, l, h1, h2⟩

/-- on a connection the step is the edge itself -/
theorem getTransform_conn {s : GS F (Tf T)} (hw : WF s.g) {a b : FrameId} (h : s.Conn a b) :
    ∃ p, getEdgeProperty a b s = .ok p s ∧ getTransform a b s = .ok p s := by
  obtain ⟨u, v, ha, hb, -⟩ := conn_iff.1 h
  rcases getTransform_eq hw ha hb with ⟨h0, -⟩ | h1 | ⟨-, h1, -⟩ | ⟨-, h1, -⟩
  · obtain ⟨e, he, -⟩ := (adj_iff_conn ha hb).1 h
    rw [h0] at he; cases he
  · exact h1
  · exact absurd h h1
  · exact absurd h h1

theorem mulSteps_total {s : GS F (Tf T)} (hw : WF s.g) : ∀ (l : List FrameId) (acc : Tf T) (a f : FrameId), Reaches s a f acc.pose →
    (∃ r b, mulSteps s acc f l = .ok r s ∧ (f :: l).getLast? = some b ∧ Reaches s a b r.pose ∧ r.time = acc.time) ∨
    (∃ x, mulSteps s acc f l = .throw x s ∧ ¬ ((f :: l).IsChain s.Conn)) := by
  intro l
  induction l with
  | nil => intro acc a f h; exact Or.inl ⟨acc, f, rfl, rfl, h, rfl⟩
  | cons f' l ih =>
    intro acc a f h
    rcases getTransform_total hw f f' with ⟨r, h1, h2⟩ | ⟨x, h1, h2⟩
    · rcases ih { acc with pose := acc.pose * r.pose } a f' (h.trans h2) with ⟨r', b, i1, i2, i3, i4⟩ | ⟨x, i1, i2⟩
      · exact Or.inl ⟨r', b, by simp only [mulSteps, h1, i1], by rw [List.getLast?_cons_cons]; exact i2, i3, i4⟩
      · exact Or.inr ⟨x, by simp only [mulSteps, h1, i1], fun hc => i2 (List.isChain_cons_cons.1 hc).2⟩
    · refine Or.inr ⟨x, by simp only [mulSteps, h1], fun hc => ?_⟩
      obtain ⟨p, -, hp⟩ := getTransform_conn hw (List.isChain_cons_cons.1 hc).1
      rw [h1] at hp; cases hp

/-- what `pathProduct` does for a path with at least two frames -/
theorem pathProduct_total {s : GS F (Tf T)} (hw : WF s.g) {p : Path} {a b : FrameId} (h2 : 2 ≤ p.frames.length)
    (ha : p.frames.head? = some a) (hb : p.frames.getLast? = some b) :
    (∃ r, pathProduct p s = .ok r p ∧ Reaches s a b r.pose) ∨
    (∃ x, pathProduct p s = .throw x p ∧ ¬ p.frames.IsChain s.Conn) := by
  unfold pathProduct
  match hf : p.frames, h2 with
  | [], h2 => simp at h2
  | [_], h2 => simp at h2
  | f0 :: f1 :: l, _ =>
    rw [hf] at ha hb
    simp only [List.head?_cons, Option.some.injEq] at ha
    subst ha
    simp only
    rcases getTransform_total hw f0 f1 with ⟨r, h1, h2⟩ | ⟨x, h1, h2⟩
    · simp only [h1]
      rcases mulSteps_total hw l r f0 f1 h2 with ⟨r', b', i1, i2, i3, i4⟩ | ⟨x, i1, i2⟩
      · rw [List.getLast?_cons_cons, i2] at hb
        obtain rfl := Option.some.inj hb
        exact Or.inl ⟨r', by simp [i1, onPath], i3⟩
      · exact Or.inr ⟨x, by simp [i1, onPath], fun hc => i2 (List.isChain_cons_cons.1 hc).2⟩
    · refine Or.inr ⟨x, by simp [h1], fun hc => ?_⟩
      obtain ⟨p, -, hp⟩ := getTransform_conn hw (List.isChain_cons_cons.1 hc).1
      rw [h1] at hp; cases hp

/-- on a valid path the product of its own edges is returned, with the time of the first one -/
theorem pathProduct_valid {s : GS F (Tf T)} (hw : WF s.g) {p : Path} {f0 f1 : FrameId} {l : List FrameId}
    (hf : p.frames = f0 :: f1 :: l) (hc : p.frames.IsChain s.Conn) :
    ∃ q t, getEdgeProperty f0 f1 s = .ok q s ∧ Along s p.frames t ∧ pathProduct p s = .ok ⟨q.time, t⟩ p := by
  have hsteps : ∀ (l : List FrameId) (acc : Tf T) (f : FrameId), (f :: l).IsChain s.Conn →
      ∃ t, Along s (f :: l) t ∧ mulSteps s acc f l = .ok ⟨acc.time, acc.pose * t⟩ s := by
    intro l
    induction l with
    | nil => intro acc f _; exact ⟨1, .one f, by simp [mulSteps]⟩
    | cons f' l ih =>
      intro acc f hc
      obtain ⟨h1, h2⟩ := List.isChain_cons_cons.1 hc
      obtain ⟨q, q1, q2⟩ := getTransform_conn hw h1
      obtain ⟨t, t1, t2⟩ := ih ⟨acc.time, acc.pose * q.pose⟩ f' h2
      exact ⟨q.pose * t, .step q1 t1, by simp only [mulSteps, q2, t2, mul_assoc]⟩
  rw [hf] at hc
  obtain ⟨h1, h2⟩ := List.isChain_cons_cons.1 hc
  obtain ⟨q, q1, q2⟩ := getTransform_conn hw h1
  obtain ⟨t, t1, t2⟩ := hsteps l q f1 h2
  refine ⟨q, q.pose * t, q1, hf ▸ .step q1 t1, ?_⟩
  simp only [pathProduct, hf, q2, t2, onPath]

/-- `getFrames` in API terms -/
theorem getFrames_api {E : Type} [EdgeProp E] {s : GS F E} (hw : WF s.g) {a b : FrameId} (hab : a ≠ b) :
    (Joined s a b ∧ ∃ l, getFrames a b s = .ok l s ∧ IsPath s.Conn a b l ∧ l.Nodup ∧
      ∀ l', IsPath s.Conn a b l' → l.length ≤ l'.length) ∨
    (¬ Joined s a b ∧ (getFrames a b s = .ok [] s ∨ ∃ x, getFrames a b s = .throw x s)) := by
  cases ha : s.g.vertexOf a with
  | none =>
    refine Or.inr ⟨fun hj => ?_, Or.inr ⟨.unknownFrame a, by simp [getFrames, ha]⟩⟩
    have := (hj.edges hab).2.1
    simp [containsFrame, ha] at this
  | some u =>
    cases hb : s.g.vertexOf b with
    | none =>
      refine Or.inr ⟨fun hj => ?_, Or.inr ⟨.unknownFrame b, by simp [getFrames, ha, hb]⟩⟩
      have := (hj.edges hab).2.2
      simp [containsFrame, hb] at this
    | some v =>
      obtain ⟨evs, lvl, -, hd, hr⟩ := getFrames_eq hw ha hb
      rcases hr with ⟨hv, hr⟩ | ⟨hab', -⟩ | ⟨-, path, hp, hlen, hr⟩
      · refine Or.inr ⟨?_, Or.inl hr⟩
        rintro ⟨p, hp⟩
        obtain ⟨q, q1, q2, q3, -⟩ := walk_of_path hp ha hb
        exact hv (hd.walk q v q1 q2 q3).1
      · exact absurd hab' hab
      · have := treePath_shortest hw ha hb hd hp hlen
        exact Or.inl ⟨⟨_, this.1⟩, _, hr, this⟩

theorem IsPath.two {α : Type} {R : α → α → Prop} {a b : α} {l : List α} (h : IsPath R a b l) (hab : a ≠ b) : 2 ≤ l.length := by
  match l, h with
  | [], h => simpa using h.first
  | [x], h =>
    have h1 := h.first
    have h2 := h.last
    simp at h1 h2
    exact absurd (h1.symm.trans h2) hab
  | _ :: _ :: _, _ => simp

/-- the dirty case of `getTransform(path)` -/
theorem getTransformPath_dirty {s : GS F (Tf T)} {p : Path} {a b : FrameId} (h2 : 2 ≤ p.frames.length)
    (ha : p.frames.head? = some a) (hb : p.frames.getLast? = some b) (hd : p.dirty = true) :
    getTransformPath p s =
      match getFrames a b s with
      | .throw x _ => .throw x p
      | .ub r => .ub r
      | .ok l _ => if l.length = 0 then .throw .invalidPath { p.setFrames l with dirty := false }
        else pathProduct { p.setFrames l with dirty := false } s := by
  have h3 : ¬ p.frames.length ≤ 1 := by omega
  simp only [getTransformPath, h3, if_false, hd, if_true, Path.getOrigin, Path.getTarget, ha, hb]
  cases getFrames a b s <;> rfl

theorem getTransformPath_clean {s : GS F (Tf T)} {p : Path} (h2 : 2 ≤ p.frames.length) (hd : p.dirty = false) :
    getTransformPath p s = pathProduct p s := by
  have h3 : ¬ p.frames.length ≤ 1 := by omega
  simp [getTransformPath, h3, hd]

/-! ### events -/

theorem observe_fields (evs : List Event) : ∀ (p : Path), (p.observe evs).frames = p.frames ∧ (p.observe evs).edges = p.edges ∧
    (p.observe evs).auto = p.auto := by
  induction evs with
  | nil => intro p; exact ⟨rfl, rfl, rfl⟩
  | cons e evs ih =>
    intro p
    have h1 : (p.notify e).frames = p.frames ∧ (p.notify e).edges = p.edges ∧ (p.notify e).auto = p.auto := by
      cases e <;> simp only [Path.notify, and_self]
      split
      · unfold Path.edgeRemoved
        split
        · simp
        · split <;> simp
      · simp
    obtain ⟨i1, i2, i3⟩ := ih (p.notify e)
    exact ⟨i1.trans h1.1, i2.trans h1.2.1, i3.trans h1.2.2⟩

/-- a subscribed path is dirty after the events iff it was, or one of its edges was removed in path direction -/
theorem observe_dirty (evs : List Event) : ∀ (p : Path), p.auto = true →
    ((p.observe evs).dirty = true ↔ p.dirty = true ∨ ∃ o t, (o, t) ∈ p.edges ∧ Event.edgeRemoved o t ∈ evs) := by
  induction evs with
  | nil => intro p _; simp [Path.observe]
  | cons e evs ih =>
    intro p ha
    have hf := observe_fields [e] p
    have hstep : p.observe (e :: evs) = (p.notify e).observe evs := rfl
    have hf' : (p.notify e).edges = p.edges ∧ (p.notify e).auto = p.auto := ⟨hf.2.1, hf.2.2⟩
    rw [hstep, ih _ (by rw [hf'.2, ha]), hf'.1]
    have hn : (p.notify e).dirty = true ↔ p.dirty = true ∨ ∃ o t, (o, t) ∈ p.edges ∧ e = .edgeRemoved o t := by
      cases e with
      | edgeRemoved o t =>
        simp only [Path.notify, ha, if_true, Path.edgeRemoved]
        split
        · rename_i h; simp [h]
        · rename_i h
          split
          · rename_i h'
            simp only [true_iff]
            exact Or.inr ⟨o, t, h', rfl⟩
          · rename_i h'
            constructor
            · intro hh; exact absurd hh h
            · rintro (hh | ⟨o', t', h1, h2⟩)
              · exact absurd hh h
              · obtain ⟨rfl, rfl⟩ := Event.edgeRemoved.inj h2
                exact absurd h1 h'
      | _ => simp [Path.notify]
    rw [hn]
    constructor
    · rintro ((h | ⟨o, t, h1, h2⟩) | ⟨o, t, h1, h2⟩)
      · exact Or.inl h
      · exact Or.inr ⟨o, t, h1, by simp [h2]⟩
      · exact Or.inr ⟨o, t, h1, List.mem_cons_of_mem _ h2⟩
    · rintro (h | ⟨o, t, h1, h2⟩)
      · exact Or.inl (Or.inl h)
      · rcases List.mem_cons.1 h2 with h2 | h2
        · exact Or.inl (Or.inr ⟨o, t, h1, h2.symm⟩)
        · exact Or.inr ⟨o, t, h1, h2⟩

end Verif
