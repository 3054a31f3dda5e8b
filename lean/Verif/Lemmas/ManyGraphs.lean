import Verif.Spec.ManyGraphs
import Mathlib.Logic.Hydra
import Mathlib.Data.Fintype.Basic
import Mathlib.Order.WellFounded
import Mathlib.Data.Fintype.Card
set_option linter.unusedSectionVars false
/-! Lemmas about threads using several wrapped graphs. -/

namespace Verif
variable {T M σ ρ τ : Type} [DecidableEq T] [DecidableEq M]

/-- one more or less -/
def bump (h : M → Nat) (m : M) (n : Nat) : M → Nat := fun x => if x = m then n else h x

/-- A piece of code that starts with the mutexes held `h` times and ends with them held `e` times, and takes them in the order `R`. -/
def MProg.Ranked (R : M → M → Prop) (e : M → Nat) : (M → Nat) → MProg M σ ρ → Prop
  | h, .done _ => h = e
  | h, .lock m k => (0 < h m ∨ ∀ x, 0 < h x → R x m) ∧ MProg.Ranked R e (bump h m (h m + 1)) k
  | h, .unlock m k => 0 < h m ∧ MProg.Ranked R e (bump h m (h m - 1)) k
  | h, .step _ k => ∀ s, MProg.Ranked R e h (k s)

theorem MProg.Ranked.bind {R : M → M → Prop} {e e' : M → Nat} {k : ρ → MProg M σ τ} (hk : ∀ r, (k r).Ranked R e' e) (p : MProg M σ ρ) :
    ∀ {h}, p.Ranked R e h → (p.bind k).Ranked R e' h := by
  induction p with
  | done r => intro h hp; simp only [MProg.Ranked] at hp; subst hp; exact hk r
  | lock m p ih => intro h hp; exact ⟨hp.1, ih hp.2⟩
  | unlock m p ih => intro h hp; exact ⟨hp.1, ih hp.2⟩
  | step f p ih => intro h hp s; exact ih s (hp s)

theorem bump_bump (h : M → Nat) (m : M) (a : Nat) : bump (bump h m a) m (h m) = h := by
  funext x; unfold bump; split
  · rename_i hx; rw [hx]
  · rfl

theorem MProg.Ranked.guarded {R : M → M → Prop} {h : M → Nat} {m : M} {p : MProg M σ ρ} (hm : 0 < h m ∨ ∀ x, 0 < h x → R x m)
    (hp : p.Ranked R (bump h m (h m + 1)) (bump h m (h m + 1))) : (p.guarded m).Ranked R h h := by
  refine ⟨hm, ?_⟩
  refine MProg.Ranked.bind (fun r => ?_) p hp
  refine ⟨by simp [bump], ?_⟩
  have : (bump h m (h m + 1) m - 1) = h m := by simp [bump]
  simp only [MProg.Ranked, this, bump_bump]

/-- the mutexes of the list are those that are held -/
theorem Caller.Ordered.ranked {R : M → M → Prop} (c : Caller M σ ρ) : ∀ {H : List M} {h : M → Nat}, (∀ m, m ∈ H ↔ 0 < h m) →
    c.Ordered R H → c.code.Ranked R h h := by
  induction c with
  | ret r => intro H h _ _; rfl
  | raw f k ih => intro H h hh hc s; exact ih s hh (hc s)
  | call g m b k ihb ihk =>
    intro H h hh hc
    obtain ⟨h1, h2⟩ := hc
    simp only [Caller.code]
    refine MProg.Ranked.bind (e := h) (fun r => ihk r hh (h2 r)) _ ?_
    split
    · rename_i hl
      rw [if_pos hl] at h1
      refine MProg.Ranked.guarded ?_ (ihb ?_ h1.2)
      · rcases h1.1 with h1 | h1
        · exact Or.inl ((hh g).1 h1)
        · exact Or.inr (fun x hx => h1 x ((hh x).2 hx))
      · intro x
        by_cases hx : x = g
        · subst hx; simp [bump]
        · simp only [List.mem_cons, hx, false_or, bump, if_false]; exact hh x
    · rename_i hl
      rw [if_neg hl] at h1
      exact ihb hh h1
  | held g b k ihb ihk =>
    intro H h hh hc
    obtain ⟨h1, h2, h3⟩ := hc
    simp only [Caller.code]
    refine MProg.Ranked.bind (e := h) (fun r => ihk r hh (h3 r)) _ ?_
    refine MProg.Ranked.guarded ?_ (ihb ?_ h2)
    · rcases h1 with h1 | h1
      · exact Or.inl ((hh g).1 h1)
      · exact Or.inr (fun x hx => h1 x ((hh x).2 hx))
    · intro x
      by_cases hx : x = g
      · subst hx; simp [bump]
      · simp only [List.mem_cons, hx, false_or, bump, if_false]; exact hh x

theorem Caller.ordered_any (c : Caller M σ ρ) : ∀ H, c.Ordered (fun _ _ => True) H := by
  induction c with
  | ret r => intro H; trivial
  | raw f k ih => intro H s; exact ih s H
  | call g m b k ihb ihk =>
    intro H
    refine ⟨?_, fun r => ihk r H⟩
    split
    · exact ⟨Or.inr fun _ _ => trivial, ihb _⟩
    · exact ihb H
  | held g b k ihb ihk => intro H; exact ⟨Or.inr fun _ _ => trivial, ihb _, fun r => ihk r H⟩

theorem Caller.OneAtATime.ordered (c : Caller M σ ρ) : ∀ {H : Option M} {L : List M}, (∀ m ∈ L, H = some m) → (∀ m, H = some m → m ∈ L) →
    c.OneAtATime H → c.Ordered (fun _ _ => False) L := by
  induction c with
  | ret r => intros; trivial
  | raw f k ih => intro H L h1 h2 hc s; exact ih s h1 h2 (hc s)
  | call g m b k ihb ihk =>
    intro H L h1 h2 hc
    refine ⟨?_, fun r => ihk r h1 h2 (hc.2 r)⟩
    have hb := hc.1
    split
    · rename_i hl
      rw [if_pos hl] at hb
      cases hH : H with
      | none =>
        have : L = [] := by
          cases L with
          | nil => rfl
          | cons x l => have := h1 x (by simp); rw [hH] at this; cases this
        subst this
        exact ⟨Or.inr (by simp), ihb (by simp) (by simp) hb.2⟩
      | some x =>
        have hx := hb.1 x hH
        subst hx
        refine ⟨Or.inl (h2 x hH), ihb ?_ (by simp) hb.2⟩
        intro m hm
        rcases List.mem_cons.1 hm with rfl | hm
        · rfl
        · rw [← hH]; exact h1 m hm
    · rename_i hl
      rw [if_neg hl] at hb
      exact ihb h1 h2 hb
  | held g b k ihb ihk =>
    intro H L h1 h2 hc
    obtain ⟨c1, c2, c3⟩ := hc
    refine ⟨?_, ?_, fun r => ihk r h1 h2 (c3 r)⟩
    · cases hH : H with
      | none =>
        refine Or.inr (fun x hx => ?_)
        have := h1 x hx; rw [hH] at this; cases this
      | some x => exact Or.inl (c1 x hH ▸ h2 x hH)
    · refine ihb ?_ (by simp) c2
      intro m hm
      rcases List.mem_cons.1 hm with rfl | hm
      · rfl
      · rw [c1 m (h1 m hm)]

namespace Many

/-- how often thread `t` holds the mutex -/
def holds (c : Many T M σ ρ) (t : T) : M → Nat := fun m =>
  match c.owner m with
  | some (u, n) => if u = t then n else 0
  | none => 0

/-- the invariant: every thread goes on in the order `R` and gives back all that it holds -/
structure Fine (R : M → M → Prop) (c : Many T M σ ρ) : Prop where
  ranked : ∀ t, (c.progs t).Ranked R (fun _ => 0) (c.holds t)
  pos : ∀ m u n, c.owner m = some (u, n) → 0 < n

theorem Fine.start {R : M → M → Prop} {s : σ} {ps : T → MProg M σ ρ} (h : ∀ t, (ps t).Ranked R (fun _ => 0) (fun _ => 0)) :
    Fine R (start s ps) := ⟨h, fun m u n hm => by cases hm⟩

/-- the move is one that changes the program -/
def SubProg (q p : MProg M σ ρ) : Prop :=
  (∃ m, p = .lock m q) ∨ (∃ m, p = .unlock m q) ∨ ∃ f k s, p = .step f k ∧ q = k s

theorem holds_own_self {c : Many T M σ ρ} {t : T} {m : M} {n : Nat} (h : ∀ u k, c.owner m = some (u, k) → u = t) (p : T → MProg M σ ρ)
    (hc : c.holds t m = n) (n' : Nat) (u : T) :
    Many.holds (⟨c.state, own c.owner m (if n' = 0 then none else some (t, n')), p⟩ : Many T M σ ρ) u =
      if u = t then bump (c.holds t) m n' else c.holds u := by
  funext x
  by_cases hu : u = t
  · subst hu
    simp only [if_true, bump]
    by_cases hx : x = m
    · subst hx
      by_cases hn : n' = 0
      · simp [holds, own, hn]
      · simp [holds, own, hn]
    · simp [holds, own, hx]
  · simp only [if_neg hu]
    by_cases hx : x = m
    · subst hx
      have h0 : c.holds u x = 0 := by
        unfold holds
        cases ho : c.owner x with
        | none => rfl
        | some y =>
          have := h y.1 y.2 ho
          simp only
          rw [if_neg]
          rw [this]; exact fun h => hu h.symm
      rw [h0]
      by_cases hn : n' = 0
      · simp [holds, own, hn]
      · simp [holds, own, hn, Ne.symm hu]
    · simp [holds, own, hx]

theorem Fine.turn {R : M → M → Prop} {c : Many T M σ ρ} (hf : Fine R c) (t : T) :
    (c.Finished t ∧ turn t c = some c) ∨ (c.Waits t ∧ turn t c = some c) ∨
      ∃ c', turn t c = some c' ∧ Fine R c' ∧ SubProg (c'.progs t) (c.progs t) ∧ ∀ u, u ≠ t → c'.progs u = c.progs u := by
  have hr := hf.ranked t
  cases hp : c.progs t with
  | done r => exact Or.inl ⟨⟨r, hp⟩, by simp [Many.turn, hp]⟩
  | step f k =>
    refine Or.inr (Or.inr ⟨{ c with state := f c.state, progs := put c.progs t (k c.state) }, by simp only [Many.turn, hp], ⟨?_, hf.pos⟩, ?_, ?_⟩)
    · intro u
      by_cases hu : u = t
      · subst hu
        rw [hp] at hr
        have := hr c.state
        simp only [put, if_true]; exact this
      · simp only [put, if_neg hu]; exact hf.ranked u
    · exact Or.inr (Or.inr ⟨f, k, c.state, rfl, by simp [put]⟩)
    · intro u hu; simp [put, hu]
  | lock m k =>
    rw [hp] at hr
    by_cases hw : ∃ u n, c.owner m = some (u, n) ∧ u ≠ t
    · obtain ⟨u, n, h1, h2⟩ := hw
      exact Or.inr (Or.inl ⟨⟨m, k, u, n, hp, h1, h2⟩, by simp [Many.turn, hp, h1, h2]⟩)
    · push Not at hw
      have key : ∃ o, own c.owner m (if c.holds t m + 1 = 0 then none else some (t, c.holds t m + 1)) = o ∧
          Many.turn t c = some { c with owner := o, progs := put c.progs t k } := by
        refine ⟨_, rfl, ?_⟩
        simp only [Many.turn, hp]
        cases ho : c.owner m with
        | none => simp [holds, ho]
        | some y =>
          have := hw y.1 y.2 ho
          simp [holds, ho, this]
      obtain ⟨o, k1, k2⟩ := key
      have hh := fun u => holds_own_self hw (put c.progs t k) rfl (c.holds t m + 1) u
      refine Or.inr (Or.inr ⟨_, k2, ⟨?_, ?_⟩, ?_, ?_⟩)
      · intro u
        have := hh u
        rw [k1] at this
        rw [this]
        by_cases hu : u = t
        · subst hu; simpa [put] using hr.2
        · simpa [put, hu] using hf.ranked u
      · intro x u n hx
        simp only [← k1, own] at hx
        split at hx
        · simp at hx; omega
        · exact hf.pos x u n hx
      · exact Or.inl ⟨m, by simp [put]⟩
      · intro u hu; simp [put, hu]
  | unlock m k =>
    rw [hp] at hr
    have hpos : 0 < c.holds t m := hr.1
    obtain ⟨n, ho⟩ : ∃ n, c.owner m = some (t, n) := by
      unfold holds at hpos
      cases ho : c.owner m with
      | none => simp [ho] at hpos
      | some y =>
        simp only [ho] at hpos
        split at hpos
        · rename_i hy; exact ⟨y.2, by rw [← hy]⟩
        · omega
    have hn : c.holds t m = n := by simp [holds, ho]
    have hnp := hf.pos m t n ho
    have key : ∃ o, own c.owner m (if n - 1 = 0 then none else some (t, n - 1)) = o ∧
        Many.turn t c = some { c with owner := o, progs := put c.progs t k } := by
      refine ⟨_, rfl, ?_⟩
      simp only [Many.turn, hp, ho, if_true]
      by_cases h1 : n ≤ 1
      · have : n - 1 = 0 := by omega
        simp [h1, this]
      · have : ¬ n - 1 = 0 := by omega
        simp [h1, this]
    obtain ⟨o, k1, k2⟩ := key
    have hown : ∀ u k, c.owner m = some (u, k) → u = t := by
      intro u k hk; rw [ho] at hk; simp at hk; exact hk.1.symm
    have hh := fun u => holds_own_self hown (put c.progs t k) rfl (n - 1) u
    refine Or.inr (Or.inr ⟨_, k2, ⟨?_, ?_⟩, ?_, ?_⟩)
    · intro u
      have := hh u
      rw [k1] at this
      rw [this]
      by_cases hu : u = t
      · subst hu; rw [if_pos rfl]; have := hr.2; rw [hn] at this; simpa [put] using this
      · simpa [put, hu] using hf.ranked u
    · intro x u n' hx
      simp only [← k1, own] at hx
      split at hx
      · split at hx
        · cases hx
        · simp at hx; omega
      · exact hf.pos x u n' hx
    · exact Or.inr (Or.inl ⟨m, by simp [put]⟩)
    · intro u hu; simp [put, hu]

theorem Fine.exec {R : M → M → Prop} (ts : List T) : ∀ {c : Many T M σ ρ}, Fine R c → ∃ c', exec ts c = some c' ∧ Fine R c' := by
  induction ts with
  | nil => intro c hf; exact ⟨c, rfl, hf⟩
  | cons t ts ih =>
    intro c hf
    simp only [Many.exec]
    rcases hf.turn t with ⟨-, h⟩ | ⟨-, h⟩ | ⟨c', h, hf', -⟩
    · rw [h]; exact ih hf
    · rw [h]; exact ih hf
    · rw [h]; exact ih hf'

theorem exec_append (as bs : List T) : ∀ (c : Many T M σ ρ), exec (as ++ bs) c = (exec as c).bind (exec bs) := by
  induction as with
  | nil => intro c; rfl
  | cons a as ih => intro c; simp only [List.cons_append, exec]; cases turn a c <;> simp [ih]

/-- not everybody waits -/
theorem Fine.no_deadlock [Finite T] {R : M → M → Prop} (hR : Acyclic R) {c : Many T M σ ρ} (hf : Fine R c) (t0 : T) (h0 : ¬ c.Finished t0) :
    ∃ t, ¬ c.Finished t ∧ ¬ c.Waits t := by
  by_contra hcon
  push Not at hcon
  -- `u` holds what `t` waits for, and waits for something else
  let S : T → T → Prop := fun u t => ∃ m k m' k', c.progs t = .lock m k ∧ c.progs u = .lock m' k' ∧ Relation.TransGen R m m'
  have hS : IsTrans T S := ⟨by
    rintro a b d ⟨m, k, m', k', h1, h2, h3⟩ ⟨n, l, n', l', g1, g2, g3⟩
    rw [h1] at g2; cases g2
    exact ⟨n, l, m', k', g1, h2, g3.trans h3⟩⟩
  have hI : Std.Irrefl S := ⟨by
    rintro a ⟨m, k, m', k', h1, h2, h3⟩
    rw [h1] at h2; cases h2
    exact hR _ h3⟩
  have hwf : WellFounded S := Finite.wellFounded_of_trans_of_irrefl S
  have : ∀ t, c.Waits t → False := by
    intro t
    induction t using hwf.induction with
    | _ t ih =>
      rintro ⟨m, k, u, n, h1, h2, h3⟩
      have hu : 0 < c.holds u m := by
        have := hf.pos m u n h2
        simpa [holds, h2] using this
      have hnf : ¬ c.Finished u := by
        rintro ⟨r, hr⟩
        have := hf.ranked u
        rw [hr] at this
        simp only [MProg.Ranked] at this
        rw [this] at hu
        exact absurd hu (by simp)
      have hw := hcon u hnf
      obtain ⟨m', k', u', n', g1, g2, g3⟩ := hw
      have hru := hf.ranked u
      rw [g1] at hru
      refine ih u ⟨m, k, m', k', h1, g1, .single ?_⟩ (hcon u hnf)
      rcases hru.1 with h | h
      · exfalso
        simp only [holds, g2, if_neg g3] at h
        omega
      · exact h m hu
  exact this t0 (hcon t0 h0)

theorem subProg_wf : WellFounded (SubProg (M := M) (σ := σ) (ρ := ρ)) := by
  refine ⟨fun p => ?_⟩
  induction p with
  | done r => exact ⟨_, fun q hq => by rcases hq with ⟨m, h⟩ | ⟨m, h⟩ | ⟨f, k, s, h, -⟩ <;> cases h⟩
  | lock m p ih => exact ⟨_, fun q hq => by rcases hq with ⟨m, h⟩ | ⟨m, h⟩ | ⟨f, k, s, h, -⟩ <;> cases h; exact ih⟩
  | unlock m p ih => exact ⟨_, fun q hq => by rcases hq with ⟨m, h⟩ | ⟨m, h⟩ | ⟨f, k, s, h, -⟩ <;> cases h; exact ih⟩
  | step f p ih =>
    refine ⟨_, fun q hq => ?_⟩
    rcases hq with ⟨m, h⟩ | ⟨m, h⟩ | ⟨f, k, s, h, rfl⟩
    · cases h
    · cases h
    · cases h; exact ih s

/-- everybody can finish -/
theorem Fine.finish [Fintype T] {R : M → M → Prop} (hR : Acyclic R) {c : Many T M σ ρ} (hf : Fine R c) :
    ∃ ts c', Many.exec ts c = some c' ∧ ∀ t, c'.Finished t := by
  have hwf := (subProg_wf (M := M) (σ := σ) (ρ := ρ)).cutExpand
  generalize hx : (Finset.univ : Finset T).val.map c.progs = X
  induction X using hwf.induction generalizing c with
  | _ X ih =>
    by_cases hall : ∀ t, c.Finished t
    · exact ⟨[], c, rfl, hall⟩
    · push Not at hall
      obtain ⟨t0, h0⟩ := hall
      obtain ⟨t, h1, h2⟩ := hf.no_deadlock hR t0 h0
      rcases hf.turn t with ⟨h, -⟩ | ⟨h, -⟩ | ⟨c', h3, h4, h5, h6⟩
      · exact absurd h h1
      · exact absurd h h2
      · have hlt : Relation.CutExpand SubProg ((Finset.univ : Finset T).val.map c'.progs) X := by
          rw [← hx]
          have hu : (Finset.univ : Finset T).val = t ::ₘ (Finset.univ.erase t).val := by
            rw [← Finset.insert_val_of_notMem (Finset.notMem_erase t _), Finset.insert_erase (Finset.mem_univ t)]
          rw [hu, Multiset.map_cons, Multiset.map_cons]
          have he : (Finset.univ.erase t).val.map c'.progs = (Finset.univ.erase t).val.map c.progs := by
            refine Multiset.map_congr rfl (fun u hu => h6 u ?_)
            exact (Finset.mem_erase.1 hu).1
          rw [he, ← Multiset.singleton_add, ← Multiset.singleton_add]
          exact Relation.cutExpand_single_add h5 _
        obtain ⟨ts, c2, k1, k2⟩ := ih _ hlt h4 rfl
        exact ⟨t :: ts, c2, by simp only [Many.exec, h3]; exact k1, k2⟩

end Many
end Verif
