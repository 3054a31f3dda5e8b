import Verif.Model.Files
import Verif.Lemmas.Blob
import Verif.Lemmas.LoadInto

set_option linter.unusedSectionVars false
/-! # Files that are cut off, graphs after a failed load -/

namespace Verif
variable {D E : Type}

/-- What is read does not depend on what comes later: reading more tokens gives the same, and only an exception (the end was reached) can
become something else. -/
def Mono {α : Type} (ld : IArchive D E → Res (IArchive D E) α) : Prop := ∀ p q o,
  match ld ⟨p, o⟩ with
  | .ok x a => ld ⟨p ++ q, o⟩ = .ok x ⟨a.toks ++ q, a.objs⟩
  | .ub m => ld ⟨p ++ q, o⟩ = .ub m
  | .throw _ _ => True

namespace Mono
variable {α β : Type}

theorem pure (x : α) : Mono (D := D) (E := E) (fun a => .ok x a) := fun _ _ _ => rfl

theorem ub (m : String) : Mono (D := D) (E := E) (α := α) (fun _ => .ub m) := fun _ _ _ => rfl

theorem read (f : Tok D E → Option α) : Mono (fun a => a.read f) := by
  intro p q o
  cases p with
  | nil => trivial
  | cons t p =>
    simp only [IArchive.read, List.cons_append]
    cases f t <;> rfl

theorem bind {ld : IArchive D E → Res (IArchive D E) α} {k : α → IArchive D E → Res (IArchive D E) β} (h : Mono ld) (hk : ∀ x, Mono (k x)) :
    Mono (fun a => IArchive.bind (ld a) k) := by
  intro p q o
  have h1 := h p q o
  simp only
  cases h2 : ld ⟨p, o⟩ with
  | ok x a =>
    rw [h2] at h1
    simp only at h1
    rw [h1]
    exact hk x a.toks q a.objs
  | throw x a => exact trivial
  | ub m => rw [h2] at h1; simp only at h1; rw [h1]; rfl

theorem loadItem (t : TypeIdx) : Mono (D := D) (E := E) (IArchive.loadItem t) :=
  (read _).bind fun _ => (read _).bind fun _ => (read _).bind fun _ => (read _).bind fun _ => pure _

theorem loadPtr : Mono (D := D) (E := E) IArchive.loadPtr := by
  refine (read IArchive.ptr?).bind (k := fun (p : TypeIdx ⊕ Nat) a =>
    match p with
    | .inr k => if k < a.objs.length then .ok k a else .ub "archive out of step"
    | .inl t => IArchive.bind (IArchive.loadItem t a) fun o a => .ok a.objs.length { a with objs := a.objs ++ [o] }) ?_
  intro x
  cases x with
  | inr k =>
    intro p q o
    by_cases h : k < o.length <;> simp [h]
  | inl t =>
    refine (loadItem t).bind (k := fun o a => .ok a.objs.length { a with objs := a.objs ++ [o] }) ?_
    intro x p q o
    rfl

theorem load (H : String → Bool) : Mono (D := D) (E := E) (IArchive.load H) := by
  refine (read _).bind (k := fun c a => if H c then IArchive.bind (IArchive.loadPtr a) fun i a => .ok (some i) a else .ok none a) ?_
  intro c
  by_cases h : H c = true
  · simp only [h, if_true]
    exact loadPtr.bind fun _ => pure _
  · simp only [h]
    exact pure _

theorem loadList (H : String → Bool) : ∀ n, Mono (D := D) (E := E) (IArchive.loadList H n) := by
  intro n
  induction n with
  | zero => exact pure _
  | succ n ih => exact (load H).bind fun _ => ih.bind fun _ => pure _

theorem loadTypes (H : String → Bool) : ∀ n m, Mono (D := D) (E := E) (IArchive.loadTypes H n m) := by
  intro n
  induction n with
  | zero => intro m; exact pure _
  | succ n ih =>
    intro m
    refine (read _).bind (k := fun k a => IArchive.bind (IArchive.loadList H k a) fun l a =>
      match l with
      | [] => IArchive.loadTypes H n m a
      | i :: _ =>
        match a.typeOf i with
        | none => .ub "dangling item"
        | some t => IArchive.loadTypes H n (m.insertNew t l) a) fun k => (loadList H k).bind (k := fun l a =>
      match l with
      | [] => IArchive.loadTypes H n m a
      | i :: _ =>
        match a.typeOf i with
        | none => .ub "dangling item"
        | some t => IArchive.loadTypes H n (m.insertNew t l) a) fun l => ?_
    cases l with
    | nil => exact ih m
    | cons i l =>
      intro p q o
      have e : (⟨p ++ q, o⟩ : IArchive D E).typeOf i = (⟨p, o⟩ : IArchive D E).typeOf i := rfl
      simp only [e]
      cases h : (⟨p, o⟩ : IArchive D E).typeOf i with
      | none => rfl
      | some t => exact ih _ p q o

theorem loadFrame (H : String → Bool) : Mono (D := D) (E := E) (IArchive.loadFrame H) :=
  (read _).bind fun _ => ((read _).bind fun n => loadTypes H n []).bind fun _ => pure _

end Mono

/-- the same for functions that change a graph -/
def MonoG (ld : IArchive D E → Res (G EFrame E) (IArchive D E)) : Prop := ∀ p q o,
  match ld ⟨p, o⟩ with
  | .ok a g => ld ⟨p ++ q, o⟩ = .ok ⟨a.toks ++ q, a.objs⟩ g
  | .ub m => ld ⟨p ++ q, o⟩ = .ub m
  | .throw _ _ => True

namespace MonoG

theorem loadFramesT (H : String → Bool) (off : Nat) : ∀ n (g : G EFrame E), MonoG (D := D) (IArchive.loadFramesT H off n g) := by
  intro n
  induction n with
  | zero => intro g p q o; rfl
  | succ n ih =>
    intro g p q o
    have h := Mono.loadFrame (E := E) H p q o
    simp only [IArchive.loadFramesT]
    cases h2 : IArchive.loadFrame H ⟨p, o⟩ with
    | ok fr a => rw [h2] at h; simp only at h; rw [h]; exact ih _ a.toks q a.objs
    | throw x a => exact trivial
    | ub m => rw [h2] at h; simp only at h; rw [h]

theorem loadEdgesT (dflt : E) (vs : List VId) : ∀ n (g : G EFrame E), MonoG (D := D) (IArchive.loadEdgesT dflt vs n g) := by
  intro n
  induction n with
  | zero => intro g p q o; rfl
  | succ n ih =>
    intro g p q o
    have h := Mono.read (D := D) (E := E) IArchive.size? p q o
    simp only [IArchive.loadEdgesT]
    cases h2 : (⟨p, o⟩ : IArchive D E).read IArchive.size? with
    | throw x a => exact trivial
    | ub m => simp only [h2] at h; rw [h]
    | ok u a =>
      simp only [h2] at h
      rw [h]
      have h' := Mono.read (D := D) (E := E) IArchive.size? a.toks q a.objs
      simp only
      cases h3 : (⟨a.toks, a.objs⟩ : IArchive D E).read IArchive.size? with
      | throw x a => exact trivial
      | ub m => simp only [h3] at h'; rw [h']
      | ok v a =>
        simp only [h3] at h'
        rw [h']
        simp only
        cases vs[u]? with
        | none => rfl
        | some u =>
          cases vs[v]? with
          | none => rfl
          | some v =>
            have h'' := Mono.read (D := D) (E := E) IArchive.edge? a.toks q a.objs
            simp only
            cases h4 : (⟨a.toks, a.objs⟩ : IArchive D E).read IArchive.edge? with
            | throw x a => exact trivial
            | ub m => simp only [h4] at h''; rw [h'']
            | ok x a =>
              simp only [h4] at h''
              rw [h'']
              exact ih _ a.toks q a.objs

theorem loadGraphT (H : String → Bool) (off : Nat) (dflt : E) (g : G EFrame E) : MonoG (D := D) (IArchive.loadGraphT H off dflt g) := by
  intro p q o
  have h := Mono.read (D := D) (E := E) IArchive.size? p q o
  simp only [IArchive.loadGraphT]
  cases h2 : (⟨p, o⟩ : IArchive D E).read IArchive.size? with
  | throw x a => exact trivial
  | ub m => simp only [h2] at h; rw [h]
  | ok n a =>
    simp only [h2] at h
    rw [h]
    have h' := Mono.read (D := D) (E := E) IArchive.size? a.toks q a.objs
    simp only
    cases h3 : (⟨a.toks, a.objs⟩ : IArchive D E).read IArchive.size? with
    | throw x a => exact trivial
    | ub m => simp only [h3] at h'; rw [h']
    | ok k a =>
      simp only [h3] at h'
      rw [h']
      have h5 := loadFramesT (D := D) H off n g a.toks q a.objs
      simp only
      cases h4 : IArchive.loadFramesT H off n g ⟨a.toks, a.objs⟩ with
      | throw x a => exact trivial
      | ub m => simp only [h4] at h5; rw [h5]
      | ok a g1 =>
        simp only [h4] at h5
        rw [h5]
        have h7 := loadEdgesT (D := D) dflt ((g1.verts.drop g.verts.length).map VRec.id) k g1 a.toks q a.objs
        simp only
        cases h6 : IArchive.loadEdgesT dflt ((g1.verts.drop g.verts.length).map VRec.id) k g1 ⟨a.toks, a.objs⟩ with
        | throw x a => exact trivial
        | ub m => simp only [h6] at h7; rw [h7]
        | ok a g2 => simp only [h6] at h7; rw [h7]

/-- a proper part of what is read to the end throws -/
theorem cut {ld : IArchive D E → Res (G EFrame E) (IArchive D E)} (h : MonoG ld) {p q : List (Tok D E)} {o o' : List (SObj D)} {g : G EFrame E}
    (hr : ld ⟨p ++ q, o⟩ = .ok ⟨[], o'⟩ g) (hq : q ≠ []) : ∃ x g', ld ⟨p, o⟩ = .throw x g' := by
  have h1 := h p q o
  cases h2 : ld ⟨p, o⟩ with
  | throw x g' => exact ⟨x, g', rfl⟩
  | ub m => rw [h2] at h1; simp only at h1; rw [h1] at hr; cases hr
  | ok a g' =>
    rw [h2] at h1
    simp only at h1
    rw [h1] at hr
    injection hr with e1 e2
    injection e1 with e3 e4
    exact absurd (List.append_eq_nil_iff.1 e3).2 hq

end MonoG

namespace IArchive

theorem loadFramesT_ok {H : String → Bool} {off : Nat} : ∀ {n : Nat} {g : G EFrame E} {a : IArchive D E} {g' a'},
    loadFramesInto H off n g a = .ok g' a' → loadFramesT H off n g a = .ok a' g' := by
  intro n
  induction n with
  | zero => intro g a g' a' h; simp only [loadFramesInto] at h; cases h; rfl
  | succ n ih =>
    intro g a g' a' h
    simp only [loadFramesInto, bind] at h
    simp only [loadFramesT]
    cases h2 : loadFrame H a with
    | throw x b => rw [h2] at h; cases h
    | ub m => rw [h2] at h; cases h
    | ok fr b => rw [h2] at h; exact ih h

theorem loadEdgesT_ok {dflt : E} {vs : List VId} : ∀ {n : Nat} {g : G EFrame E} {a : IArchive D E} {g' a'},
    loadEdges vs n g a = .ok g' a' → loadEdgesT dflt vs n g a = .ok a' g' := by
  intro n
  induction n with
  | zero => intro g a g' a' h; simp only [loadEdges] at h; cases h; rfl
  | succ n ih =>
    intro g a g' a' h
    simp only [loadEdges, bind] at h
    simp only [loadEdgesT]
    cases h2 : a.read size? with
    | throw x b => rw [h2] at h; cases h
    | ub m => rw [h2] at h; cases h
    | ok u b =>
      rw [h2] at h
      simp only at h ⊢
      cases h3 : b.read size? with
      | throw x b => rw [h3] at h; cases h
      | ub m => rw [h3] at h; cases h
      | ok v c =>
        rw [h3] at h
        simp only at h ⊢
        cases h4 : c.read edge? with
        | throw x b => rw [h4] at h; cases h
        | ub m => rw [h4] at h; cases h
        | ok p e =>
          rw [h4] at h
          simp only at h ⊢
          cases h5 : vs[u]? with
          | none => rw [h5] at h; cases h
          | some u =>
            cases h6 : vs[v]? with
            | none => rw [h5, h6] at h; cases h
            | some v => rw [h5, h6] at h; exact ih h

/-- without an exception it is the function of `LoadInto` -/
theorem loadGraphT_ok {H : String → Bool} {off : Nat} (dflt : E) {g g' : G EFrame E} {a a' : IArchive D E}
    (h : loadGraphInto H off g a = .ok g' a') : loadGraphT H off dflt g a = .ok a' g' := by
  simp only [loadGraphInto, bind] at h
  simp only [loadGraphT]
  cases h2 : a.read size? with
  | throw x b => rw [h2] at h; cases h
  | ub m => rw [h2] at h; cases h
  | ok n b =>
    rw [h2] at h
    simp only at h ⊢
    cases h3 : b.read size? with
    | throw x b => rw [h3] at h; cases h
    | ub m => rw [h3] at h; cases h
    | ok k c =>
      rw [h3] at h
      simp only at h ⊢
      cases h4 : loadFramesInto H off n g c with
      | throw x b => rw [h4] at h; cases h
      | ub m => rw [h4] at h; cases h
      | ok g1 c1 =>
        rw [h4] at h
        rw [loadFramesT_ok h4]
        simp only at h ⊢
        cases h5 : loadEdges ((g1.verts.drop g.verts.length).map VRec.id) k g1 c1 with
        | throw x b => rw [h5] at h; cases h
        | ub m => rw [h5] at h; cases h
        | ok g2 c2 =>
          rw [h5] at h
          rw [loadEdgesT_ok h5]
          simp only at h ⊢
          cases h
          rfl

end IArchive

/-- vertices and edges were added to the lists, names were not -/
structure Grown (g g' : G EFrame E) : Prop where
  labels : g'.labels = g.labels
  verts : ∃ l, g'.verts = g.verts ++ l ∧ ∀ r ∈ l, g.nextV ≤ r.id
  edges : g.edges <+: g'.edges
  next : g.nextV ≤ g'.nextV

namespace Grown

theorem refl (g : G EFrame E) : Grown g g := ⟨rfl, ⟨[], by simp, by simp⟩, List.prefix_rfl, Nat.le_refl _⟩

theorem trans {g g' g'' : G EFrame E} (h : Grown g g') (h' : Grown g' g'') : Grown g g'' := by
  obtain ⟨l, e, hl⟩ := h.verts
  obtain ⟨l', e', hl'⟩ := h'.verts
  refine ⟨h'.labels.trans h.labels, ⟨l ++ l', by rw [e', e, List.append_assoc], ?_⟩, h.edges.trans h'.edges, Nat.le_trans h.next h'.next⟩
  intro r hr
  rcases List.mem_append.1 hr with hr | hr
  · exact hl r hr
  · exact Nat.le_trans h.next (hl' r hr)

theorem push (fr : EFrame) (g : G EFrame E) : Grown g (g.push fr) :=
  ⟨rfl, ⟨_, rfl, by simp⟩, List.prefix_rfl, Nat.le_succ _⟩

theorem addEdge (u v : VId) (p : E) (g : G EFrame E) : Grown g (g.addEdge u v p).1 :=
  ⟨rfl, ⟨[], by simp [G.addEdge], by simp⟩, List.prefix_append _ _, Nat.le_refl _⟩

/-- the state after `ok` and `throw` -/
def After (g : G EFrame E) : Res (G EFrame E) (IArchive D E) → Prop
  | .ok _ g' => Grown g g'
  | .throw _ g' => Grown g g'
  | .ub _ => True

theorem After.of {g g' : G EFrame E} {r : Res (G EFrame E) (IArchive D E)} (h : Grown g g') (hr : After g' r) : After g r := by
  cases r with
  | ok a g'' => exact h.trans hr
  | throw x g'' => exact h.trans hr
  | ub m => trivial

theorem loadFramesT (H : String → Bool) (off : Nat) : ∀ n (g : G EFrame E) (a : IArchive D E), After g (IArchive.loadFramesT H off n g a) := by
  intro n
  induction n with
  | zero => intro g a; exact refl g
  | succ n ih =>
    intro g a
    simp only [IArchive.loadFramesT]
    cases IArchive.loadFrame H a with
    | ok fr b => exact After.of (push _ g) (ih _ _)
    | throw x b => exact push _ g
    | ub m => trivial

theorem loadEdgesT (dflt : E) (vs : List VId) : ∀ n (g : G EFrame E) (a : IArchive D E), After g (IArchive.loadEdgesT dflt vs n g a) := by
  intro n
  induction n with
  | zero => intro g a; exact refl g
  | succ n ih =>
    intro g a
    simp only [IArchive.loadEdgesT]
    cases a.read IArchive.size? with
    | throw x b => exact refl g
    | ub m => trivial
    | ok u b =>
      simp only
      cases b.read IArchive.size? with
      | throw x b => exact refl g
      | ub m => trivial
      | ok v c =>
        simp only
        cases vs[u]? with
        | none => trivial
        | some u =>
          cases vs[v]? with
          | none => trivial
          | some v =>
            simp only
            cases c.read IArchive.edge? with
            | ok p c => exact After.of (addEdge _ _ _ g) (ih _ _)
            | throw x c => exact addEdge _ _ _ g
            | ub m => trivial

theorem loadGraphT {H : String → Bool} {off : Nat} {dflt : E} {g g' : G EFrame E} {a : IArchive D E} {x : Exn}
    (h : IArchive.loadGraphT H off dflt g a = .throw x g') : Grown g g' := by
  simp only [IArchive.loadGraphT] at h
  cases h2 : a.read IArchive.size? with
  | throw x b => rw [h2] at h; cases h; exact refl g
  | ub m => rw [h2] at h; cases h
  | ok n b =>
    rw [h2] at h
    simp only at h
    cases h3 : b.read IArchive.size? with
    | throw x b => rw [h3] at h; cases h; exact refl g
    | ub m => rw [h3] at h; cases h
    | ok k c =>
      rw [h3] at h
      simp only at h
      have h5 := loadFramesT H off n g c
      cases h4 : IArchive.loadFramesT H off n g c with
      | throw x b => rw [h4] at h h5; cases h; exact h5
      | ub m => rw [h4] at h; cases h
      | ok c g1 =>
        rw [h4] at h h5
        simp only at h
        have h6 := loadEdgesT dflt ((g1.verts.drop g.verts.length).map VRec.id) k g1 c
        cases h7 : IArchive.loadEdgesT dflt ((g1.verts.drop g.verts.length).map VRec.id) k g1 c with
        | throw x b => rw [h7] at h h6; cases h; exact h5.trans h6
        | ub m => rw [h7] at h; cases h
        | ok c g2 => rw [h7] at h; cases h

/-- if the file begins with the number of frames and of edges, there is at least one more vertex -/
theorem more {H : String → Bool} {off : Nat} {dflt : E} {g g' : G EFrame E} {n k : Nat} {ts : List (Tok D E)} {o : List (SObj D)} {x : Exn}
    (hn : 0 < n) (h : IArchive.loadGraphT H off dflt g ⟨.size n :: .size k :: ts, o⟩ = .throw x g') : g.verts.length < g'.verts.length := by
  obtain ⟨n, rfl⟩ : ∃ m, n = m + 1 := ⟨n - 1, by omega⟩
  simp only [IArchive.loadGraphT, IArchive.read, IArchive.size?, IArchive.loadFramesT] at h
  have hp : ∀ fr, (g.push fr).verts.length = g.verts.length + 1 := by intro fr; simp [G.push]
  have hl : ∀ {g1 g2 : G EFrame E}, Grown g1 g2 → g1.verts.length ≤ g2.verts.length := by
    intro g1 g2 hg
    obtain ⟨l, e, -⟩ := hg.verts
    rw [e]; simp
  cases h2 : IArchive.loadFrame H (⟨ts, o⟩ : IArchive D E) with
  | throw y b => rw [h2] at h; cases h; rw [hp]; exact Nat.lt_succ_self _
  | ub m => rw [h2] at h; cases h
  | ok fr b =>
    rw [h2] at h
    simp only at h
    have h5 := loadFramesT H off n (g.push (fr.shift off)) b
    cases h4 : IArchive.loadFramesT H off n (g.push (fr.shift off)) b with
    | throw x b => rw [h4] at h h5; cases h; have := hl h5; rw [hp] at this; exact this
    | ub m => rw [h4] at h; cases h
    | ok c g1 =>
      rw [h4] at h h5
      simp only at h
      have h6 := loadEdgesT dflt ((g1.verts.drop g.verts.length).map VRec.id) k g1 c
      cases h7 : IArchive.loadEdgesT dflt ((g1.verts.drop g.verts.length).map VRec.id) k g1 c with
      | throw x b =>
        rw [h7] at h h6
        cases h
        have := hl (Grown.trans h5 h6)
        rw [hp] at this
        exact this
      | ub m => rw [h7] at h; cases h
      | ok c g2 => rw [h7] at h; cases h

end Grown
end Verif
