import Verif.Lemmas.ItemTidy
import Verif.Lemmas.Reenter
import Verif.Model.ItemReenter
set_option linter.unusedSectionVars false
set_option linter.unusedSimpArgs false
/-! Lemmas about handlers of item events that call the graph. -/

namespace Verif
namespace EG
variable {E : Type} [EdgeProp E]

theorem touched_self (f : FrameId) (s : EG E) : touched f s s = false := by simp [touched]

/-- the handlers do not react to the removal of an item -/
def QuietItems (nt : INotify E) : Prop := ∀ f i s, nt (.itemRemoved f i) s = .ok () (notify (.itemRemoved f i) s)

theorem notifyUsing_quiet {nt : INotify E} (hq : QuietItems nt) (f f' : FrameId) (v : VId) (i : ItemId) (s : EG E) :
    notifyUsing nt (.itemRemoved f i) f' v s = .ok () (notify (.itemRemoved f i) s) := by
  have h1 : itemsAt v (notify (.itemRemoved f i) s) = itemsAt v s := rfl
  simp [notifyUsing, hq f i, touched_self, h1]

theorem clearListH_quiet {nt : INotify E} (hq : QuietItems nt) (f : FrameId) (v : VId) (t : TypeIdx) (l : List ItemId) : ∀ s : EG E,
    clearListH nt f v t l s = .ok () (clearList f v t l s) := by
  induction l with
  | nil => intro s; rfl
  | cons i l ih => intro s; simp only [clearListH, clearList, notifyUsing_quiet hq, ih]

theorem clearTypesH_quiet {nt : INotify E} (hq : QuietItems nt) (f : FrameId) (v : VId) (m : AMap TypeIdx (List ItemId)) : ∀ s : EG E,
    clearTypesH nt f v m s = .ok () (clearTypes f v m s) := by
  induction m with
  | nil => intro s; rfl
  | cons p m ih => intro s; obtain ⟨t, l⟩ := p; simp only [clearTypesH, clearTypes, clearListH_quiet hq, ih]

theorem clearFrameH_quiet {nt : INotify E} (hq : QuietItems nt) (f : FrameId) (s : EG E) : clearFrameH nt f s = clearFrame f s := by
  simp only [clearFrameH, clearFrame, clearTypesH_quiet hq]
  rfl

theorem removeFrameH_quiet {nt : INotify E} (hq : QuietItems nt) (f : FrameId) (s : EG E) : removeFrameH nt f s = removeFrame f s := by
  simp only [removeFrameH, removeFrame, clearFrameH_quiet hq]
  rfl

theorem clearH_quiet {nt : INotify E} (hq : QuietItems nt) (s : EG E) : clearH nt s = clear s := by
  have : removeFrameH nt = removeFrame := by funext f s; exact removeFrameH_quiet hq f s
  simp only [clearH, clear, this]
  rfl

theorem removeItemAtH_quiet {nt : INotify E} (hq : QuietItems nt) (f : FrameId) (it : ItemIt) (s : EG E) :
    removeItemAtH nt f it s = removeItemAt f it s := by
  simp only [removeItemAtH, removeItemAt, notifyUsing_quiet hq]
  rfl

theorem removeItemH_quiet {nt : INotify E} (hq : QuietItems nt) (i : ItemId) (s : EG E) : removeItemH nt i s = removeItem i s := by
  have hq' : ∀ f i s, nt (.itemRemoved f i) s = .ok () (notify (.itemRemoved f i) s) := hq
  simp only [removeItemH, removeItem, hq']
  rfl

/-- handlers that only listen -/
theorem execH_passive {nt : INotify E} (hp : ∀ ev s, nt ev s = .ok () (notify ev s)) (c : Cmd E) (s : EG E) :
    execH nt c s = exec c s := by
  have hq : QuietItems nt := fun f i s => hp _ s
  have ha : ∀ f i s, addItemToFrameH nt f i s = addItemToFrame f i s := by
    intro f i s; simp only [addItemToFrameH, addItemToFrame, hp]; rfl
  cases c with
  | graph c =>
    cases c with
    | removeFrame f => exact removeFrameH_quiet hq f s
    | addFrame f => rfl
    | emplaceFrame f p => rfl
    | disconnectFrame f => rfl
    | addEdge o t p => rfl
    | removeEdge o t => rfl
    | setEdge o t p => rfl
    | getTree f k v => rfl
    | unsubscribeView v => rfl
  | addItem i => simp only [execH, exec, ha, addItem]
  | addItemToFrame f i => simp only [execH, exec, ha]
  | removeItem i => exact removeItemH_quiet hq i s
  | removeItemAt f it => simp only [execH, exec, removeItemAtH_quiet hq]
  | clearFrame f => exact clearFrameH_quiet hq f s
  | clear => exact clearH_quiet hq s
  | setItemFrame i f => rfl

/-- reached by calls of kind `P`, one after the other -/
def Seq (P : Cmd E → Prop) (s s' : EG E) : Prop := ∃ cs, (∀ c ∈ cs, P c) ∧ run cs s = some s'

theorem Seq.refl (P : Cmd E → Prop) (s : EG E) : Seq P s s := ⟨[], by simp, rfl⟩

theorem run_append_of {cs ds : List (Cmd E)} : ∀ {s t u : EG E}, run cs s = some t → run ds t = some u → run (cs ++ ds) s = some u := by
  induction cs with
  | nil => intro s t u h1 h2; simp only [run, Option.some.injEq] at h1; subst h1; exact h2
  | cons c cs ih =>
    intro s t u h1 h2
    simp only [List.cons_append, run] at h1 ⊢
    cases hx : exec c s with
    | ok a s1 => rw [hx] at h1; exact ih h1 h2
    | throw x s1 => rw [hx] at h1; exact ih h1 h2
    | ub r => rw [hx] at h1; cases h1

theorem Seq.trans {P : Cmd E → Prop} {a b c : EG E} (h : Seq P a b) (k : Seq P b c) : Seq P a c := by
  obtain ⟨cs, h1, h2⟩ := h
  obtain ⟨ds, k1, k2⟩ := k
  refine ⟨cs ++ ds, ?_, run_append_of h2 k2⟩
  intro c hc
  rcases List.mem_append.1 hc with hc | hc
  · exact h1 c hc
  · exact k1 c hc

theorem Seq.of_exec {P : Cmd E → Prop} {c : Cmd E} (hc : P c) {s s' : EG E} (h : (exec c s).st? = some s') : Seq P s s' := by
  refine ⟨[c], by simpa using hc, ?_⟩
  simp only [run]
  cases hx : exec c s with
  | ok a s1 => rw [hx] at h; simpa [Res.st?] using h
  | throw x s1 => rw [hx] at h; simpa [Res.st?] using h
  | ub r => rw [hx] at h; cases h

/-- the call publishes its event at the end -/
def Cmd.late : Cmd E → Prop
  | .graph (.removeFrame _) => False
  | .removeItemAt _ _ => False
  | .clearFrame _ => False
  | .clear => False
  | _ => True

/-- everything the handlers do could be done by calls of kind `P` -/
def SeqNotify (P : Cmd E → Prop) (nt : INotify E) : Prop := ∀ ev s s', (nt ev s).st? = some s' → Seq P (notify ev s) s'

theorem addItemToFrameH_seq {P : Cmd E → Prop} {nt : INotify E} (hl : SeqNotify P nt) {c : Cmd E} (hc : P c) {f : FrameId} {i : ItemId}
    {s s' : EG E} (hx : exec c s = addItemToFrame f i s) (h : (addItemToFrameH nt f i s).st? = some s') : Seq P s s' := by
  simp only [addItemToFrameH] at h
  simp only [addItemToFrame] at hx
  cases hv : s.gs.g.vertexOf f with
  | none => rw [hv] at h hx; exact .of_exec hc (by rw [hx]; exact h)
  | some v =>
    rw [hv] at h hx
    exact (Seq.of_exec hc (by rw [hx]; rfl)).trans (hl _ _ _ h)

theorem removeItemH_seq {P : Cmd E → Prop} {nt : INotify E} (hl : SeqNotify P nt) {i : ItemId} (hc : P (.removeItem i))
    {s s' : EG E} (h : (removeItemH nt i s).st? = some s') : Seq P s s' := by
  have hx : exec (.removeItem i) s = removeItem i s := rfl
  simp only [removeItemH] at h
  simp only [removeItem] at hx
  cases hv : s.gs.g.vertexOf (s.heap i).frame with
  | none => rw [hv] at h hx; exact .of_exec hc (by rw [hx]; exact h)
  | some v =>
    rw [hv] at h hx
    simp only at h hx
    cases hr : s.gs.g.findV v with
    | none => rw [hr] at h; cases h
    | some r =>
      rw [hr] at h hx
      simp only at h hx
      cases hg : r.prop.items.get (s.heap i).type with
      | none => rw [hg] at h hx; exact .of_exec hc (by rw [hx]; exact h)
      | some l =>
        rw [hg] at h hx
        simp only at h hx
        by_cases hi : i ∈ l
        · rw [if_pos hi] at h hx
          exact (Seq.of_exec hc (by rw [hx]; rfl)).trans (hl _ _ _ h)
        · rw [if_neg hi] at h hx
          exact .of_exec hc (by rw [hx]; exact h)

/-- one call: handlers that ignore removals, or a call that publishes last -/
theorem execH_seq {P : Cmd E → Prop} {nt : INotify E} (hl : SeqNotify P nt) {c : Cmd E} (hq : QuietItems nt ∨ c.late) (hc : P c)
    {s s' : EG E} (h : (execH nt c s).st? = some s') : Seq P s s' := by
  cases c with
  | graph c =>
    cases c with
    | removeFrame f =>
      rcases hq with hq | hq
      · simp only [execH, removeFrameH_quiet hq] at h; exact .of_exec hc h
      · exact hq.elim
    | addFrame f => exact .of_exec hc h
    | emplaceFrame f p => exact .of_exec hc h
    | disconnectFrame f => exact .of_exec hc h
    | addEdge o t p => exact .of_exec hc h
    | removeEdge o t => exact .of_exec hc h
    | setEdge o t p => exact .of_exec hc h
    | getTree f k v => exact .of_exec hc h
    | unsubscribeView v => exact .of_exec hc h
  | addItem i => exact addItemToFrameH_seq hl hc rfl h
  | addItemToFrame f i => exact addItemToFrameH_seq hl hc rfl h
  | removeItem i => exact removeItemH_seq hl hc h
  | removeItemAt f it =>
    rcases hq with hq | hq
    · simp only [execH, removeItemAtH_quiet hq] at h; exact .of_exec hc h
    · exact hq.elim
  | clearFrame f =>
    rcases hq with hq | hq
    · simp only [execH, clearFrameH_quiet hq] at h; exact .of_exec hc h
    · exact hq.elim
  | clear =>
    rcases hq with hq | hq
    · simp only [execH, clearH_quiet hq] at h; exact .of_exec hc h
    · exact hq.elim
  | setItemFrame i f => exact .of_exec hc h

theorem handleLoop_seq {P : Cmd E → Prop} {hd : IHandler E} {call : Cmd E → EG E → Res (EG E) Unit} {ev : Event}
    (hP : ∀ ev k s c b, hd ev k s = .call c b → P c)
    (hc : ∀ c s s', P c → (call c s).st? = some s' → Seq P s s') : ∀ (n k : Nat) (s s' : EG E),
    (handleLoop hd call ev n k s).st? = some s' → Seq P s s' := by
  intro n
  induction n with
  | zero =>
    intro k s s' h
    rw [handleLoop.eq_def] at h
    simp only at h
    split at h
    · simp only [Res.st?, Option.some.injEq] at h; subst h; exact .refl _ _
    · simp only [Res.st?, Option.some.injEq] at h; subst h; exact .refl _ _
    · cases h
  | succ n ih =>
    intro k s s' h
    rw [handleLoop.eq_def] at h
    simp only at h
    split at h
    · simp only [Res.st?, Option.some.injEq] at h; subst h; exact .refl _ _
    · simp only [Res.st?, Option.some.injEq] at h; subst h; exact .refl _ _
    · rename_i c caught hx
      have pc := hP _ _ _ _ _ hx
      cases hr : call c s with
      | ub r => rw [hr] at h; cases h
      | ok a s1 =>
        rw [hr] at h
        exact (hc c s s1 pc (by rw [hr]; rfl)).trans (ih _ _ _ h)
      | throw x s1 =>
        rw [hr] at h
        have l1 := hc c s s1 pc (by rw [hr]; rfl)
        simp only at h
        split at h
        · exact l1.trans (ih _ _ _ h)
        · simp only [Res.st?, Option.some.injEq] at h; subst h; exact l1

theorem hexec_seq {P : Cmd E → Prop} {hd : IHandler E} (hP : ∀ ev k s c b, hd ev k s = .call c b → P c)
    (hq : (∀ f i s, hd (.itemRemoved f i) 0 s = .done) ∨ ∀ c, P c → c.late) : ∀ (n : Nat) (c : Cmd E) (s s' : EG E), P c →
    (hexec hd n c s).st? = some s' → Seq P s s' := by
  intro n
  induction n with
  | zero => intro c s s' _ h; cases h
  | succ n ih =>
    intro c s s' pc h
    refine execH_seq (nt := fun ev s => handleLoop hd (hexec hd n) ev n 0 (notify ev s)) ?_ ?_ pc h
    · intro ev s s' h
      exact handleLoop_seq hP ih n 0 _ s' h
    · rcases hq with hq | hq
      · left
        intro f i s
        change handleLoop hd (hexec hd n) (.itemRemoved f i) n 0 (notify (.itemRemoved f i) s) = _
        rw [handleLoop.eq_def]
        simp only [hq]
      · exact .inr (hq c pc)

/-! ### Every call, with every handler, is a chain of elementary changes -/

variable {P : GS.Cmd EFrame E → Prop}

/-- the handlers' changes are chains of elementary changes -/
def ChainNotify (P : GS.Cmd EFrame E → Prop) (nt : INotify E) : Prop := ∀ ev s s', (nt ev s).st? = some s' → Chain P (notify ev s) s'

theorem notifyUsing_chain {nt : INotify E} (hl : ChainNotify P nt) {f f' : FrameId} {i : ItemId} {v : VId} {s s' : EG E}
    (h : (notifyUsing nt (.itemRemoved f i) f' v s).st? = some s') : Chain P s s' := by
  simp only [notifyUsing] at h
  cases hn : nt (.itemRemoved f i) s with
  | ub r => rw [hn] at h; cases h
  | throw x s1 =>
    rw [hn] at h
    simp only [Res.st?, Option.some.injEq] at h; subst h
    exact .head (.removed f i) (hl _ _ _ (by rw [hn]; rfl))
  | ok a s1 =>
    rw [hn] at h
    simp only at h
    split at h
    · cases h
    · simp only [Res.st?, Option.some.injEq] at h; subst h
      exact .head (.removed f i) (hl _ _ _ (by rw [hn]; rfl))

theorem clearListH_chain {nt : INotify E} (hl : ChainNotify P nt) (f : FrameId) (v : VId) (t : TypeIdx) (l : List ItemId) :
    ∀ {s s' : EG E}, (clearListH nt f v t l s).st? = some s' → Chain P s s' := by
  induction l with
  | nil => intro s s' h; simp only [clearListH, Res.st?, Option.some.injEq] at h; subst h; exact .refl
  | cons i l ih =>
    intro s s' h
    simp only [clearListH] at h
    have m : Chain P s (modFrame v (EFrame.setList t l) s) := .single (.mod v (h := EFrame.setList t l) (fun _ => rfl))
    cases hn : notifyUsing nt (.itemRemoved f i) f v (modFrame v (EFrame.setList t l) s) with
    | ub r => rw [hn] at h; cases h
    | throw x s1 =>
      rw [hn] at h
      simp only [Res.st?, Option.some.injEq] at h; subst h
      exact m.trans (notifyUsing_chain hl (by rw [hn]; rfl))
    | ok a s1 =>
      rw [hn] at h
      exact (m.trans (notifyUsing_chain hl (by rw [hn]; rfl))).trans (ih h)

theorem clearTypesH_chain {nt : INotify E} (hl : ChainNotify P nt) (f : FrameId) (v : VId) (m : AMap TypeIdx (List ItemId)) :
    ∀ {s s' : EG E}, (clearTypesH nt f v m s).st? = some s' → Chain P s s' := by
  induction m with
  | nil => intro s s' h; simp only [clearTypesH, Res.st?, Option.some.injEq] at h; subst h; exact .refl
  | cons p m ih =>
    intro s s' h
    obtain ⟨t, l⟩ := p
    simp only [clearTypesH] at h
    cases hn : clearListH nt f v t l s with
    | ub r => rw [hn] at h; cases h
    | throw x s1 =>
      rw [hn] at h
      simp only [Res.st?, Option.some.injEq] at h; subst h
      exact clearListH_chain hl f v t l (by rw [hn]; rfl)
    | ok a s1 =>
      rw [hn] at h
      exact (clearListH_chain hl f v t l (s' := s1) (by rw [hn]; rfl)).trans
        (.head (.mod v (h := EFrame.eraseType t) (fun _ => rfl)) (ih h))

theorem clearFrameH_chain {nt : INotify E} (hl : ChainNotify P nt) {f : FrameId} {s s' : EG E}
    (h : (clearFrameH nt f s).st? = some s') : Chain P s s' := by
  unfold clearFrameH at h
  split at h
  · simp only [Res.st?, Option.some.injEq] at h; subst h; exact .refl
  · split at h
    · simp [Res.st?] at h
    · exact clearTypesH_chain hl _ _ _ h

theorem removeFrameH_chain {nt : INotify E} (hl : ChainNotify P nt) {f : FrameId} (hP : P (.removeFrame f)) {s s' : EG E}
    (h : (removeFrameH nt f s).st? = some s') : Chain P s s' := by
  unfold removeFrameH at h
  split at h
  · rename_i s1 h1
    exact (clearFrameH_chain hl (s' := s1) (by rw [h1]; rfl)).trans (base_chain (c := .removeFrame f) hP h)
  · rename_i s1 h1
    simp only [Res.st?, Option.some.injEq] at h; subst h
    exact clearFrameH_chain hl (by rw [h1]; rfl)
  · simp [Res.st?] at h

theorem clearH_chain {nt : INotify E} (hl : ChainNotify P nt) (h1 : ∀ f, P (.removeFrame f)) (h2 : ∀ f, P (.disconnectFrame f))
    {s s' : EG E} (h : (clearH nt s).st? = some s') : Chain P s s' := by
  have hd : ∀ f s s', ((fun f (s : EG E) => base s.heap (GS.disconnectFrame f s.gs)) f s).st? = some s' →
      Chain P s s' := fun f s s' h => base_chain (c := .disconnectFrame f) (h2 f) h
  unfold clearH at h
  simp only at h
  split at h
  · rename_i s1 e1
    exact (forFrames_chain hd _ (s' := s1) (by rw [e1]; rfl)).trans
      (forFrames_chain (fun f s s' h => removeFrameH_chain hl (h1 f) h) _ h)
  · rename_i s1 e1
    simp only [Res.st?, Option.some.injEq] at h
    subst h
    exact forFrames_chain hd _ (by rw [e1]; rfl)
  · simp [Res.st?] at h

theorem addItemToFrameH_chain {nt : INotify E} (hl : ChainNotify P nt) {f : FrameId} {i : ItemId} {s s' : EG E}
    (h : (addItemToFrameH nt f i s).st? = some s') : Chain P s s' := by
  unfold addItemToFrameH at h
  split at h
  · simp only [Res.st?, Option.some.injEq] at h; subst h; exact .refl
  · rename_i v hv
    exact .head (.mod v (h := EFrame.push (s.heap i).type i) (fun _ => rfl)) (.head (.heap _) (.head (.added f i) (hl _ _ _ h)))

theorem removeItemH_chain {nt : INotify E} (hl : ChainNotify P nt) {i : ItemId} {s s' : EG E}
    (h : (removeItemH nt i s).st? = some s') : Chain P s s' := by
  unfold removeItemH at h
  simp only at h
  split at h
  · simp only [Res.st?, Option.some.injEq] at h; subst h; exact .refl
  · rename_i v hv
    split at h
    · simp [Res.st?] at h
    · split at h
      · simp only [Res.st?, Option.some.injEq] at h; subst h; exact .refl
      · rename_i l hl'
        split at h
        · refine .head (.mod v (h := EFrame.setList (s.heap i).type (l.erase i)) (fun _ => rfl))
            (.head (.heap (setItemFrame i "" s).heap) ?_)
          split at h
          · exact .head (.mod v (h := EFrame.eraseType (s.heap i).type) (fun _ => rfl)) (.head (.removed _ i) (hl _ _ _ h))
          · exact .head (.removed _ i) (hl _ _ _ h)
        · simp only [Res.st?, Option.some.injEq] at h; subst h; exact .refl

theorem removeItemAtH_chain {nt : INotify E} (hl : ChainNotify P nt) {f : FrameId} {it : ItemIt} {s s' : EG E}
    (h : (removeItemAtH nt f it s).st? = some s') : Chain P s s' := by
  unfold removeItemAtH at h
  split at h
  · simp only [Res.st?, Option.some.injEq] at h; subst h; exact .refl
  · rename_i v hv
    split at h
    · simp [Res.st?] at h
    · rename_i i hi
      split at h
      · simp [Res.st?] at h
      · split at h
        · simp only [Res.st?, Option.some.injEq] at h; subst h; exact .refl
        · rename_i l hl'
          split at h
          · simp [Res.st?] at h
          · simp only at h
            have m : Chain P s (setItemFrame i "" (modFrame v (EFrame.setList it.type (l.eraseIdx it.pos)) s)) :=
              .head (.mod v (h := EFrame.setList it.type (l.eraseIdx it.pos)) (fun _ => rfl)) (.single (.heap _))
            split at h
            · rename_i s2 h2
              have m2 := m.trans (notifyUsing_chain hl (s' := s2) (by rw [h2]; rfl))
              simp only [Res.st?, Option.some.injEq] at h; subst h
              split
              · exact m2.trans (.single (.mod v (h := EFrame.eraseType it.type) (fun _ => rfl)))
              · exact m2
            · rename_i s2 h2
              simp only [Res.st?, Option.some.injEq] at h; subst h
              exact m.trans (notifyUsing_chain hl (by rw [h2]; rfl))
            · simp [Res.st?] at h

theorem execH_chain {nt : INotify E} (hl : ChainNotify P nt) {c : Cmd E} (hc : c.within P) {s s' : EG E}
    (h : (execH nt c s).st? = some s') : Chain P s s' := by
  cases c with
  | graph c =>
    cases c with
    | removeFrame f => exact removeFrameH_chain hl hc h
    | emplaceFrame f p => exact base_chain hc h
    | addFrame f => exact base_chain hc h
    | disconnectFrame f => exact base_chain hc h
    | addEdge o t p => exact base_chain hc h
    | removeEdge o t => exact base_chain hc h
    | setEdge o t p => exact base_chain hc h
    | getTree f k v => exact base_chain hc h
    | unsubscribeView v => exact base_chain hc h
  | addItem i => exact addItemToFrameH_chain hl h
  | addItemToFrame f i => exact addItemToFrameH_chain hl h
  | removeItem i => exact removeItemH_chain hl h
  | removeItemAt f it =>
    simp only [execH] at h
    apply removeItemAtH_chain hl (f := f) (it := it)
    cases hx : removeItemAtH nt f it s <;> rw [hx] at h <;> exact h
  | clearFrame f => exact clearFrameH_chain hl h
  | clear => exact clearH_chain hl hc.1 hc.2 h
  | setItemFrame i f =>
    simp only [execH, Res.st?, Option.some.injEq] at h; subst h
    exact .single (.heap _)

theorem handleLoop_chain {hd : IHandler E} {call : Cmd E → EG E → Res (EG E) Unit} {ev : Event}
    (hP : ∀ ev k s c b, hd ev k s = .call c b → c.within P)
    (hc : ∀ c s s', c.within P → (call c s).st? = some s' → Chain P s s') : ∀ (n k : Nat) (s s' : EG E),
    (handleLoop hd call ev n k s).st? = some s' → Chain P s s' := by
  intro n
  induction n with
  | zero =>
    intro k s s' h
    rw [handleLoop.eq_def] at h
    simp only at h
    split at h
    · simp only [Res.st?, Option.some.injEq] at h; subst h; exact .refl
    · simp only [Res.st?, Option.some.injEq] at h; subst h; exact .refl
    · cases h
  | succ n ih =>
    intro k s s' h
    rw [handleLoop.eq_def] at h
    simp only at h
    split at h
    · simp only [Res.st?, Option.some.injEq] at h; subst h; exact .refl
    · simp only [Res.st?, Option.some.injEq] at h; subst h; exact .refl
    · rename_i c caught hx
      have pc := hP _ _ _ _ _ hx
      cases hr : call c s with
      | ub r => rw [hr] at h; cases h
      | ok a s1 =>
        rw [hr] at h
        exact (hc c s s1 pc (by rw [hr]; rfl)).trans (ih _ _ _ h)
      | throw x s1 =>
        rw [hr] at h
        have l1 := hc c s s1 pc (by rw [hr]; rfl)
        simp only at h
        split at h
        · exact l1.trans (ih _ _ _ h)
        · simp only [Res.st?, Option.some.injEq] at h; subst h; exact l1

theorem hexec_chain {hd : IHandler E} (hP : ∀ ev k s c b, hd ev k s = .call c b → c.within P) :
    ∀ (n : Nat) (c : Cmd E) (s s' : EG E), c.within P → (hexec hd n c s).st? = some s' → Chain P s s' := by
  intro n
  induction n with
  | zero => intro c s s' _ h; cases h
  | succ n ih =>
    intro c s s' pc h
    exact execH_chain (nt := fun ev s => handleLoop hd (hexec hd n) ev n 0 (notify ev s))
      (fun ev s s' h => handleLoop_chain hP ih n 0 _ s' h) pc h

/-- what `hexec` calls when an event is published -/
def notifyH (hd : IHandler E) (n : Nat) : INotify E := fun ev s => handleLoop hd (hexec hd n) ev n 0 (notify ev s)

theorem hexec_succ (hd : IHandler E) (n : Nat) (c : Cmd E) (s : EG E) : hexec hd (n + 1) c s = execH (notifyH hd n) c s := rfl

theorem within_true (c : Cmd E) : c.within (fun _ => True) := by cases c <;> simp [Cmd.within]

theorem notifyH_chain (hd : IHandler E) (n : Nat) : ChainNotify (fun _ => True) (notifyH hd n) :=
  fun _ _ s' h => handleLoop_chain (fun _ _ _ c _ _ => within_true c) (hexec_chain (fun _ _ _ c _ _ => within_true c) n) n 0 _ s' h

theorem hrun_chain {hd : IHandler E} (hP : ∀ ev k s c b, hd ev k s = .call c b → c.within P) (n : Nat) {cs : List (Cmd E)} :
    (∀ c ∈ cs, c.within P) → ∀ {s s' : EG E}, hrun hd n cs s = some s' → Chain P s s' := by
  induction cs with
  | nil => intro _ s s' h; simp only [hrun, Option.some.injEq] at h; subst h; exact .refl
  | cons c cs ih =>
    intro hcs s s' h
    simp only [hrun] at h
    have hc := hcs c (by simp)
    have hcs' : ∀ c ∈ cs, c.within P := fun c h => hcs c (by simp [h])
    cases hx : hexec hd n c s with
    | ub r => rw [hx] at h; cases h
    | ok a s1 => rw [hx] at h; exact (hexec_chain hP n c s s1 hc (by rw [hx]; rfl)).trans (ih hcs' h)
    | throw x s1 => rw [hx] at h; exact (hexec_chain hP n c s s1 hc (by rw [hx]; rfl)).trans (ih hcs' h)

theorem Chain.trace {s s' : EG E} (h : Chain P s s') (hw : WF s.gs.g) : ∃ l, s'.gs.trace = s.gs.trace ++ l := by
  induction h with
  | refl => exact ⟨[], by simp⟩
  | tail h0 h1 ih =>
    obtain ⟨l, hl⟩ := ih
    cases h1 with
    | call hc hx =>
      obtain ⟨l', -, h2⟩ := GS.exec_advances (Chain.wf h0 hw) hx
      exact ⟨l ++ l', by rw [h2, hl, List.append_assoc]⟩
    | mod v hid => exact ⟨l, hl⟩
    | heap _ => exact ⟨l, hl⟩
    | added f i => exact ⟨l ++ [_], by rw [← List.append_assoc, ← hl]; rfl⟩
    | removed f i => exact ⟨l ++ [_], by rw [← List.append_assoc, ← hl]; rfl⟩

theorem Chain.named {s s' : EG E} (h : Chain P s s') (hw : WF s.gs.g) {v : VId} {f : FrameId} (hn : VNamed s.gs.g v f) :
    VNamed s'.gs.g v f := by
  induction h with
  | refl => exact hn
  | tail h0 h1 ih =>
    cases h1 with
    | call hc hx =>
      obtain ⟨l', h2, -⟩ := GS.exec_advances (Chain.wf h0 hw) hx
      exact h2.named ih
    | mod w hid =>
      refine ⟨ih.1, ?_⟩
      intro r hr he
      obtain ⟨q, hq, hqr⟩ := List.mem_map.1 hr
      have h3 := ih.2 q hq
      subst hqr
      split at he
      · rw [if_pos (by assumption)]; exact (hid _).trans (h3 he)
      · rw [if_neg (by assumption)]; exact h3 he
    | heap _ => exact ih
    | added f i => exact ih
    | removed f i => exact ih

/-! ### `clearFrame` with arbitrary handlers -/

theorem itemsAt_modFrame (v : VId) (h : EFrame → EFrame) (s : EG E) :
    itemsAt v (modFrame v h s) = (s.gs.g.findV v).map (fun r => (h r.prop).items) := by
  simp only [itemsAt, modFrame, G.findV_modV, Option.map_map]
  cases hr : s.gs.g.findV v with
  | none => rfl
  | some r => simp [(G.findV_some hr).2]

theorem itemsAt_setList (v : VId) (t : TypeIdx) (l : List ItemId) (s : EG E) :
    itemsAt v (modFrame v (EFrame.setList t l) s) = (itemsAt v s).map (fun m => m.set t l) := by
  rw [itemsAt_modFrame]; simp only [itemsAt, Option.map_map]; rfl

theorem itemsAt_eraseType (v : VId) (t : TypeIdx) (s : EG E) :
    itemsAt v (modFrame v (EFrame.eraseType t) s) = (itemsAt v s).map (fun m => m.erase t) := by
  rw [itemsAt_modFrame]; simp only [itemsAt, Option.map_map]; rfl

/-- the events about the items of a frame that were published on the way from one state to the other -/
def news (f : FrameId) (s s' : EG E) : List Event := ((s'.gs.trace.drop s.gs.trace.length).map Prod.fst).filter (touches f)

theorem news_trans {f : FrameId} {s t u : EG E} {l l' : List (Event × G EFrame E)} (h1 : t.gs.trace = s.gs.trace ++ l)
    (h2 : u.gs.trace = t.gs.trace ++ l') : news f s u = news f s t ++ news f t u := by
  simp only [news]
  rw [h2, List.drop_left, h1, List.append_assoc, List.drop_left, List.drop_left]
  simp

theorem notifyUsing_ok {nt : INotify E} (hl : ChainNotify P nt) {f : FrameId} {i : ItemId} {v : VId} {s s' : EG E} (hw : WF s.gs.g)
    (h : notifyUsing nt (.itemRemoved f i) f v s = .ok () s') : itemsAt v s' = itemsAt v s ∧ news f s s' = [.itemRemoved f i] := by
  simp only [notifyUsing] at h
  cases hn : nt (.itemRemoved f i) s with
  | ub r => rw [hn] at h; cases h
  | throw x s1 => rw [hn] at h; cases h
  | ok a s1 =>
    rw [hn] at h
    simp only at h
    split at h
    · cases h
    · rename_i hx
      simp only [Res.ok.injEq, true_and] at h; subst h
      push Not at hx
      obtain ⟨hx1, hx2⟩ := hx
      refine ⟨hx2, ?_⟩
      have hw1 : WF (notify (.itemRemoved f i) s).gs.g := hw
      obtain ⟨l, hl1⟩ := Chain.trace (hl _ _ _ (by rw [hn]; rfl)) hw1
      have ht : (notify (.itemRemoved f i) s).gs.trace = s.gs.trace ++ [(.itemRemoved f i, s.gs.g)] := rfl
      rw [news_trans ht hl1]
      have e1 : news f s (notify (.itemRemoved f i) s) = [.itemRemoved f i] := by
        simp [news, ht, touches]
      have e2 : news f (notify (.itemRemoved f i) s) s1 = [] := by
        simp only [touched] at hx1
        simp only [news]
        rw [List.filter_eq_nil_iff]
        intro e he
        obtain ⟨x, hx, rfl⟩ := List.mem_map.1 he
        intro hc
        simp only [Bool.not_eq_true, List.any_eq_false] at hx1
        rw [hx1 x hx] at hc; cases hc
      rw [e1, e2]; rfl

theorem clearListH_ok {nt : INotify E} (hl : ChainNotify P nt) (f : FrameId) (v : VId) (t : TypeIdx) (l : List ItemId) :
    ∀ {s s' : EG E}, WF s.gs.g → clearListH nt f v t l s = .ok () s' →
      (itemsAt v s').map (fun m => m.erase t) = (itemsAt v s).map (fun m => m.erase t) ∧ news f s s' = l.map (fun i => .itemRemoved f i) := by
  induction l with
  | nil =>
    intro s s' hw h
    simp only [clearListH, Res.ok.injEq, true_and] at h; subst h
    simp [news]
  | cons i l ih =>
    intro s s' hw h
    simp only [clearListH] at h
    cases hn : notifyUsing nt (.itemRemoved f i) f v (modFrame v (EFrame.setList t l) s) with
    | ub r => rw [hn] at h; cases h
    | throw x s1 => rw [hn] at h; cases h
    | ok a s1 =>
      rw [hn] at h
      simp only at h
      have hwm : WF (modFrame v (EFrame.setList t l) s).gs.g := hw.modV v (fun _ => rfl)
      have c1 := notifyUsing_chain hl (s' := s1) (by rw [hn]; rfl)
      have hw1 := Chain.wf c1 hwm
      obtain ⟨a1, a2⟩ := notifyUsing_ok hl hwm hn
      obtain ⟨b1, b2⟩ := ih hw1 h
      obtain ⟨l1, t1⟩ := Chain.trace c1 hwm
      obtain ⟨l2, t2⟩ := Chain.trace (clearListH_chain hl f v t l (s' := s') (by rw [h]; rfl)) hw1
      refine ⟨?_, ?_⟩
      · rw [b1, a1, itemsAt_setList, Option.map_map]
        congr 1
        funext m
        exact EFrame.erase_set m t l
      · have t1' : s1.gs.trace = s.gs.trace ++ l1 := t1
        have a2' : news f s s1 = [.itemRemoved f i] := a2
        rw [news_trans t1' t2, a2', b2]
        rfl

theorem clearTypesH_ok {nt : INotify E} (hl : ChainNotify P nt) (f : FrameId) (v : VId) (m : AMap TypeIdx (List ItemId)) :
    ∀ {s s' : EG E}, WF s.gs.g → clearTypesH nt f v m s = .ok () s' →
      itemsAt v s' = (itemsAt v s).map (fun x => x.filter (fun p => p.1 ∉ AMap.keys m)) ∧
        news f s s' = (m.flatMap (fun p => p.2)).map (fun i => .itemRemoved f i) := by
  induction m with
  | nil =>
    intro s s' hw h
    simp only [clearTypesH, Res.ok.injEq, true_and] at h; subst h
    simp [news, AMap.keys]
  | cons p m ih =>
    intro s s' hw h
    obtain ⟨t, l⟩ := p
    simp only [clearTypesH] at h
    cases hn : clearListH nt f v t l s with
    | ub r => rw [hn] at h; cases h
    | throw x s1 => rw [hn] at h; cases h
    | ok a s1 =>
      rw [hn] at h
      simp only at h
      have c1 := clearListH_chain hl f v t l (s' := s1) (by rw [hn]; rfl)
      have hw1 := Chain.wf c1 hw
      have hwm : WF (modFrame v (EFrame.eraseType t) s1).gs.g := hw1.modV v (fun _ => rfl)
      obtain ⟨a1, a2⟩ := clearListH_ok hl f v t l hw hn
      obtain ⟨b1, b2⟩ := ih hwm h
      obtain ⟨l1, t1⟩ := Chain.trace c1 hw
      obtain ⟨l2, t2⟩ := Chain.trace (clearTypesH_chain hl f v m (s' := s') (by rw [h]; rfl)) hwm
      have t1' : (modFrame v (EFrame.eraseType t) s1).gs.trace = s.gs.trace ++ l1 := t1
      have a2' : news f s (modFrame v (EFrame.eraseType t) s1) = l.map (fun i => .itemRemoved f i) := a2
      refine ⟨?_, ?_⟩
      · rw [b1, itemsAt_eraseType, a1, Option.map_map]
        congr 1
        funext x
        simp only [Function.comp, AMap.erase, List.filter_filter, AMap.keys, List.map_cons, List.mem_cons, not_or]
        congr 1
        funext q
        by_cases h1 : q.1 = t <;> by_cases h2 : q.1 ∈ m.map (·.1) <;> simp [h1, h2]
      · rw [news_trans t1' t2, a2', b2]
        simp

/-! ### The last item of a type -/

/-- the graph while the last item of a type is announced -/
theorem clearList_last (f : FrameId) (v : VId) (t : TypeIdx) (i : ItemId) (l : List ItemId) : ∀ s : EG E,
    ∃ u, (itemsAt v u).isSome = (itemsAt v s).isSome ∧ u.gs.g.labels = s.gs.g.labels ∧
      clearList f v t (l ++ [i]) s = notify (.itemRemoved f i) (modFrame v (EFrame.setList t []) u) ∧
      ∀ nt : INotify E, (∀ j ∈ l, ∀ s, nt (.itemRemoved f j) s = .ok () (notify (.itemRemoved f j) s)) →
        clearListH nt f v t (l ++ [i]) s = notifyUsing nt (.itemRemoved f i) f v (modFrame v (EFrame.setList t []) u) := by
  induction l with
  | nil =>
    intro s
    refine ⟨s, rfl, rfl, rfl, fun nt _ => ?_⟩
    simp only [List.nil_append, clearListH]
    cases notifyUsing nt (.itemRemoved f i) f v (modFrame v (EFrame.setList t []) s) <;> rfl
  | cons j l ih =>
    intro s
    obtain ⟨u, h1, h2, h3, h4⟩ := ih (notify (.itemRemoved f j) (modFrame v (EFrame.setList t (l ++ [i])) s))
    refine ⟨u, ?_, h2, by simp only [List.cons_append, clearList]; exact h3, fun nt hn => ?_⟩
    · rw [h1]
      change (itemsAt v (modFrame v (EFrame.setList t (l ++ [i])) s)).isSome = _
      rw [itemsAt_setList]; simp
    · have hu : notifyUsing nt (.itemRemoved f j) f v (modFrame v (EFrame.setList t (l ++ [i])) s) =
          .ok () (notify (.itemRemoved f j) (modFrame v (EFrame.setList t (l ++ [i])) s)) := by
        have h1 : itemsAt v (notify (.itemRemoved f j) (modFrame v (EFrame.setList t (l ++ [i])) s)) =
          itemsAt v (modFrame v (EFrame.setList t (l ++ [i])) s) := rfl
        simp [notifyUsing, hn j (by simp), touched_self, h1]
      simp only [List.cons_append, clearListH, hu]
      exact h4 nt (fun k hk => hn k (by simp [hk]))

theorem clearListH_quietOn {nt : INotify E} (f : FrameId) (v : VId) (t : TypeIdx) (l : List ItemId)
    (hn : ∀ j ∈ l, ∀ s, nt (.itemRemoved f j) s = .ok () (notify (.itemRemoved f j) s)) : ∀ s : EG E,
    clearListH nt f v t l s = .ok () (clearList f v t l s) := by
  induction l with
  | nil => intro s; rfl
  | cons i l ih =>
    intro s
    have h1 : itemsAt v (notify (.itemRemoved f i) (modFrame v (EFrame.setList t l) s)) = itemsAt v (modFrame v (EFrame.setList t l) s) := rfl
    simp only [clearListH, clearList, notifyUsing, hn i (by simp), touched_self, h1, ih (fun j hj => hn j (by simp [hj]))]
    simp

theorem clearList_meta (f : FrameId) (v : VId) (t : TypeIdx) (l : List ItemId) : ∀ s : EG E,
    (itemsAt v (clearList f v t l s)).isSome = (itemsAt v s).isSome ∧ (clearList f v t l s).gs.g.labels = s.gs.g.labels := by
  induction l with
  | nil => intro s; exact ⟨rfl, rfl⟩
  | cons i l ih =>
    intro s
    obtain ⟨h1, h2⟩ := ih (notify (.itemRemoved f i) (modFrame v (EFrame.setList t l) s))
    refine ⟨h1.trans ?_, h2⟩
    change (itemsAt v (modFrame v (EFrame.setList t l) s)).isSome = _
    rw [itemsAt_setList]; simp

theorem clearTypes_append (f : FrameId) (v : VId) (m m' : AMap TypeIdx (List ItemId)) : ∀ s : EG E,
    clearTypes f v (m ++ m') s = clearTypes f v m' (clearTypes f v m s) := by
  induction m with
  | nil => intro s; rfl
  | cons p m ih => intro s; obtain ⟨t, l⟩ := p; simp only [List.cons_append, clearTypes]; exact ih _

theorem clearTypesH_append {nt : INotify E} (f : FrameId) (v : VId) (m m' : AMap TypeIdx (List ItemId))
    (hn : ∀ p ∈ m, ∀ j ∈ p.2, ∀ s, nt (.itemRemoved f j) s = .ok () (notify (.itemRemoved f j) s)) : ∀ s : EG E,
    clearTypesH nt f v (m ++ m') s = clearTypesH nt f v m' (clearTypes f v m s) := by
  induction m with
  | nil => intro s; rfl
  | cons p m ih =>
    intro s; obtain ⟨t, l⟩ := p
    simp only [List.cons_append, clearTypes, clearTypesH, clearListH_quietOn f v t l (hn (t, l) (by simp))]
    exact ih (fun q hq => hn q (by simp [hq])) _

theorem clearTypes_meta (f : FrameId) (v : VId) (m : AMap TypeIdx (List ItemId)) : ∀ s : EG E,
    (itemsAt v (clearTypes f v m s)).isSome = (itemsAt v s).isSome ∧ (clearTypes f v m s).gs.g.labels = s.gs.g.labels := by
  induction m with
  | nil => intro s; exact ⟨rfl, rfl⟩
  | cons p m ih =>
    intro s; obtain ⟨t, l⟩ := p
    obtain ⟨h1, h2⟩ := ih (modFrame v (EFrame.eraseType t) (clearList f v t l s))
    obtain ⟨h3, h4⟩ := clearList_meta f v t l s
    refine ⟨h1.trans ?_, h2.trans h4⟩
    rw [itemsAt_eraseType]; simp [h3]

/-- an empty list of type `t` in frame `f` -/
def EmptyEntry (f : FrameId) (t : TypeIdx) (s : EG E) : Prop :=
  ∃ v r, s.gs.g.vertexOf f = some v ∧ s.gs.g.findV v = some r ∧ r.prop.items.get t = some []

theorem emptyEntry_of {f : FrameId} {v : VId} {t : TypeIdx} {u : EG E} (hi : (itemsAt v u).isSome) (hv : u.gs.g.vertexOf f = some v) :
    EmptyEntry f t (modFrame v (EFrame.setList t []) u) := by
  have h1 := itemsAt_setList v t [] u
  obtain ⟨m, hm⟩ := Option.isSome_iff_exists.1 hi
  rw [hm] at h1
  simp only [itemsAt, Option.map_some] at h1
  obtain ⟨r, hr, hr'⟩ := Option.map_eq_some_iff.1 h1
  refine ⟨v, r, hv, hr, ?_⟩
  rw [hr', AMap.get_set]; simp

/-- `clearFrame` up to the announcement of the last item of type `t` -/
theorem clearFrame_last {f : FrameId} {v : VId} {r : VRec EFrame} {s : EG E} (hv : s.gs.g.vertexOf f = some v)
    (hr : s.gs.g.findV v = some r) {m1 m2 : AMap TypeIdx (List ItemId)} {t : TypeIdx} {l : List ItemId} {i : ItemId}
    (hm : r.prop.items = m1 ++ (t, l ++ [i]) :: m2) :
    ∃ u, EmptyEntry f t u ∧
      clearFrame f s = .ok () (clearTypes f v m2 (modFrame v (EFrame.eraseType t) (notify (.itemRemoved f i) u))) ∧
      ∀ nt : INotify E, (∀ j ∈ m1.flatMap (fun p => p.2) ++ l, ∀ s, nt (.itemRemoved f j) s = .ok () (notify (.itemRemoved f j) s)) →
        ∀ x s', nt (.itemRemoved f i) u = .throw x s' → clearFrameH nt f s = .throw x s' := by
  obtain ⟨u, h1, h2, h3, h4⟩ := clearList_last f v t i l (clearTypes f v m1 s)
  obtain ⟨k1, k2⟩ := clearTypes_meta f v m1 s
  have hi : (itemsAt v s).isSome := by simp [itemsAt, hr]
  have hvu : u.gs.g.vertexOf f = some v := by
    change AMap.get u.gs.g.labels f = some v
    rw [h2, k2]; exact hv
  refine ⟨modFrame v (EFrame.setList t []) u, emptyEntry_of (by rw [h1, k1]; exact hi) hvu, ?_, ?_⟩
  · simp only [clearFrame, hv, hr, hm, clearTypes_append, clearTypes, h3]
  · intro nt hn x s' hx
    have e1 := h4 nt (fun j hj => hn j (by simp [hj]))
    simp only [clearFrameH, hv, hr, hm]
    rw [clearTypesH_append f v m1 _ (fun p hp j hj => hn j (by
      rw [List.mem_append]; left; exact List.mem_flatMap.2 ⟨p, hp, hj⟩))]
    simp only [clearTypesH, e1, notifyUsing, hx]

end EG
end Verif
