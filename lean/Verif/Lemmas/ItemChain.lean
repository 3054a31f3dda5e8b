import Verif.Lemmas.ItemCalls
import Verif.Lemmas.Mirror
import Mathlib.Logic.Relation

set_option linter.unusedSectionVars false
/-! The calls of `EnvireGraph` are made of calls of `Graph`, changes of item lists, changes of items and item events. -/

namespace Verif
namespace EG
variable {E : Type} [EdgeProp E]

/-- one elementary change; calls of `Graph` satisfy `P` -/
inductive Atom (P : GS.Cmd EFrame E → Prop) : EG E → EG E → Prop
  | call {s : EG E} {c : GS.Cmd EFrame E} {gs : GS EFrame E} : P c → (GS.exec c s.gs).st? = some gs → Atom P s ⟨gs, s.heap⟩
  | mod {s : EG E} (v : VId) {h : EFrame → EFrame} : (∀ p, (h p).id = p.id) → Atom P s (modFrame v h s)
  | heap {s : EG E} (hp : ItemId → ItemObj) : Atom P s { s with heap := hp }
  | added {s : EG E} (f : FrameId) (i : ItemId) : Atom P s (notify (.itemAdded f i) s)
  | removed {s : EG E} (f : FrameId) (i : ItemId) : Atom P s (notify (.itemRemoved f i) s)

/-- a sequence of elementary changes -/
abbrev Chain (P : GS.Cmd EFrame E → Prop) : EG E → EG E → Prop := Relation.ReflTransGen (Atom P)

variable {P : GS.Cmd EFrame E → Prop}

theorem clearList_chain (f : FrameId) (v : VId) (t : TypeIdx) (l : List ItemId) : ∀ s : EG E, Chain P s (clearList f v t l s) := by
  induction l with
  | nil => intro s; exact .refl
  | cons i l ih =>
    intro s
    exact .head (.mod v (h := EFrame.setList t l) (fun _ => rfl)) (.head (.removed f i) (ih _))

theorem clearTypes_chain (f : FrameId) (v : VId) (m : AMap TypeIdx (List ItemId)) : ∀ s : EG E, Chain P s (clearTypes f v m s) := by
  induction m with
  | nil => intro s; exact .refl
  | cons p m ih =>
    intro s
    exact (clearList_chain f v p.1 p.2 s).trans (.head (.mod v (h := EFrame.eraseType p.1) (fun _ => rfl)) (ih _))

theorem clearFrame_chain {f : FrameId} {s s' : EG E} (h : (clearFrame f s).st? = some s') : Chain P s s' := by
  unfold clearFrame at h
  split at h
  · simp only [Res.st?, Option.some.injEq] at h; subst h; exact .refl
  · split at h
    · simp [Res.st?] at h
    · simp only [Res.st?, Option.some.injEq] at h; subst h; exact clearTypes_chain _ _ _ _

theorem base_chain {c : GS.Cmd EFrame E} (hc : P c) {s s' : EG E} (h : (base s.heap (GS.exec c s.gs)).st? = some s') :
    Chain P s s' := by
  cases hx : GS.exec c s.gs <;> rw [hx] at h <;> simp only [base, Res.st?, Option.some.injEq, reduceCtorEq] at h <;>
    subst h <;> exact .single (.call hc (by rw [hx]; rfl))

theorem removeFrame_chain {f : FrameId} (hP : P (.removeFrame f)) {s s' : EG E} (h : (removeFrame f s).st? = some s') :
    Chain P s s' := by
  unfold removeFrame at h
  split at h
  · rename_i s1 h1
    exact (clearFrame_chain (s' := s1) (by rw [h1]; rfl)).trans (base_chain (c := .removeFrame f) hP h)
  · rename_i s1 h1
    simp only [Res.st?, Option.some.injEq] at h; subst h
    exact clearFrame_chain (by rw [h1]; rfl)
  · simp [Res.st?] at h

theorem forFrames_chain {call : FrameId → EG E → Res (EG E) Unit} (hcall : ∀ f s s', (call f s).st? = some s' → Chain P s s')
    (fs : List FrameId) : ∀ {s s' : EG E}, (forFrames call fs s).st? = some s' → Chain P s s' := by
  induction fs with
  | nil =>
    intro s s' h
    simp only [forFrames, Res.st?, Option.some.injEq] at h
    subst h; exact .refl
  | cons f fs ih =>
    intro s s' h
    unfold forFrames at h
    split at h
    · rename_i s1 h1
      exact (hcall f s s1 (by rw [h1]; rfl)).trans (ih h)
    · rename_i s1 h1
      simp only [Res.st?, Option.some.injEq] at h
      subst h
      exact hcall f s _ (by rw [h1]; rfl)
    · simp [Res.st?] at h

theorem clear_chain (h1 : ∀ f, P (.removeFrame f)) (h2 : ∀ f, P (.disconnectFrame f)) {s s' : EG E}
    (h : (clear s).st? = some s') : Chain P s s' := by
  have hd : ∀ f s s', ((fun f (s : EG E) => base s.heap (GS.disconnectFrame f s.gs)) f s).st? = some s' →
      Chain P s s' := fun f s s' h => base_chain (c := .disconnectFrame f) (h2 f) h
  unfold clear at h
  simp only at h
  split at h
  · rename_i s1 e1
    exact (forFrames_chain hd _ (s' := s1) (by rw [e1]; rfl)).trans
      (forFrames_chain (fun f s s' h => removeFrame_chain (h1 f) h) _ h)
  · rename_i s1 e1
    simp only [Res.st?, Option.some.injEq] at h
    subst h
    exact forFrames_chain hd _ (by rw [e1]; rfl)
  · simp [Res.st?] at h

theorem addItemToFrame_chain {f : FrameId} {i : ItemId} {s s' : EG E} (h : (addItemToFrame f i s).st? = some s') :
    Chain P s s' := by
  unfold addItemToFrame at h
  split at h
  · simp only [Res.st?, Option.some.injEq] at h; subst h; exact .refl
  · rename_i v hv
    simp only [Res.st?, Option.some.injEq] at h; subst h
    exact .head (.mod v (h := EFrame.push (s.heap i).type i) (fun _ => rfl)) (.head (.heap _) (.single (.added f i)))

theorem removeItem_chain {i : ItemId} {s s' : EG E} (h : (removeItem i s).st? = some s') : Chain P s s' := by
  unfold removeItem at h
  simp only at h
  split at h
  · simp only [Res.st?, Option.some.injEq] at h; subst h; exact .refl
  · rename_i v hv
    split at h
    · simp [Res.st?] at h
    · split at h
      · simp only [Res.st?, Option.some.injEq] at h; subst h; exact .refl
      · rename_i l hl
        split at h
        · simp only [Res.st?, Option.some.injEq] at h; subst h
          refine .head (.mod v (h := EFrame.setList (s.heap i).type (l.erase i)) (fun _ => rfl))
            (.head (.heap (setItemFrame i "" s).heap) ?_)
          split
          · exact .head (.mod v (h := EFrame.eraseType (s.heap i).type) (fun _ => rfl)) (.single (.removed _ i))
          · exact .single (.removed _ i)
        · simp only [Res.st?, Option.some.injEq] at h; subst h; exact .refl

theorem removeItemAt_chain {f : FrameId} {it : ItemIt} {s s' : EG E} (h : (removeItemAt f it s).st? = some s') :
    Chain P s s' := by
  unfold removeItemAt at h
  split at h
  · simp only [Res.st?, Option.some.injEq] at h; subst h; exact .refl
  · rename_i v hv
    split at h
    · simp [Res.st?] at h
    · rename_i i hi
      split at h
      · simp [Res.st?] at h
      · split at h
        · simp only [Res.st?, Option.some.injEq] at h; subst h; exact .refl
        · rename_i l hl
          split at h
          · simp [Res.st?] at h
          · simp only [Res.st?, Option.some.injEq] at h; subst h
            refine .head (.mod v (h := EFrame.setList it.type (l.eraseIdx it.pos)) (fun _ => rfl)) (.head (.heap (setItemFrame i "" s).heap)
              (.head (.removed f i) ?_))
            split
            · exact .single (.mod v (h := EFrame.eraseType it.type) (fun _ => rfl))
            · exact .refl

/-- the calls of `Graph` that one call makes -/
def Cmd.within (P : GS.Cmd EFrame E → Prop) : Cmd E → Prop
  | .graph c => P c
  | .clear => (∀ f, P (.removeFrame f)) ∧ ∀ f, P (.disconnectFrame f)
  | _ => True

theorem exec_chain {c : Cmd E} (hc : c.within P) {s s' : EG E} (h : (exec c s).st? = some s') : Chain P s s' := by
  cases c with
  | graph c =>
    cases c with
    | removeFrame f => exact removeFrame_chain hc h
    | emplaceFrame f p => exact base_chain hc h
    | addFrame f => exact base_chain hc h
    | disconnectFrame f => exact base_chain hc h
    | addEdge o t p => exact base_chain hc h
    | removeEdge o t => exact base_chain hc h
    | setEdge o t p => exact base_chain hc h
    | getTree f k p => exact base_chain hc h
    | unsubscribeView p => exact base_chain hc h
  | addItem i => exact addItemToFrame_chain h
  | addItemToFrame f i => exact addItemToFrame_chain h
  | removeItem i => exact removeItem_chain h
  | removeItemAt f it => exact removeItemAt_chain (by simpa only [exec, GS.st?_discard] using h)
  | clearFrame f => exact clearFrame_chain h
  | clear => exact clear_chain hc.1 hc.2 h
  | setItemFrame i f =>
    simp only [exec, Res.st?, Option.some.injEq] at h
    subst h; exact .single (.heap _)

theorem run_chain {cs : List (Cmd E)} (hcs : ∀ c ∈ cs, c.within P) : ∀ {s s' : EG E}, run cs s = some s' → Chain P s s' := by
  induction cs with
  | nil =>
    intro s s' h
    simp only [run, Option.some.injEq] at h
    subst h; exact .refl
  | cons c cs ih =>
    intro s s' h
    obtain ⟨s1, h1, h2⟩ := run_cons h
    exact (exec_chain (hcs c (by simp)) h1).trans (ih (fun c hc => hcs c (by simp [hc])) h2)

theorem Atom.wf {s s' : EG E} (h : Atom P s s') (hw : WF s.gs.g) : WF s'.gs.g := by
  cases h with
  | call hc hx => exact (GS.exec_advances hw hx).wf hw
  | mod v hid => exact hw.modV v hid
  | heap hp => exact hw
  | added f i => exact hw
  | removed f i => exact hw

theorem Chain.wf {s s' : EG E} (h : Chain P s s') (hw : WF s.gs.g) : WF s'.gs.g := by
  induction h with
  | refl => exact hw
  | tail _ h1 ih => exact h1.wf ih

theorem Atom.paired {s s' : EG E} (h : Atom GS.Cmd.noSelf s s') (hw : WF s.gs.g) (hp : Paired s.gs.g) : Paired s'.gs.g := by
  cases h with
  | call hc hx =>
    obtain ⟨l, a1, -⟩ := GS.exec_advances hw hx
    exact a1.paired hw hp (fun g e he => (he hc).1)
  | mod v hid => exact hp.of_edges rfl
  | heap _ => exact hp
  | added f i => exact hp
  | removed f i => exact hp

theorem Chain.paired {s s' : EG E} (h : Chain GS.Cmd.noSelf s s') (hw : WF s.gs.g) (hp : Paired s.gs.g) : Paired s'.gs.g := by
  induction h with
  | refl => exact hp
  | tail h0 h1 ih => exact h1.paired (Chain.wf h0 hw) ih

/-- the strict observer of `C08` follows; item events do not concern it -/
theorem Atom.mirror {s s' : EG E} (h : Atom GS.Cmd.noSelf s s') (hw : WF s.gs.g) (hp : Paired s.gs.g) :
    ∃ l, s'.gs.trace = s.gs.trace ++ l ∧ ∀ m, MirrorOf s.gs.g m → ∃ m', m.replay (l.map Prod.fst) = some m' ∧ MirrorOf s'.gs.g m' := by
  cases h with
  | call hc hx =>
    obtain ⟨l, a1, a2⟩ := GS.exec_advances hw hx
    exact ⟨l, a2, fun m hm => MirrorOf.steps (fun g e he => he hc) a1 hw hp hm⟩
  | mod v hid => exact ⟨[], by simp [modFrame], fun m hm => ⟨m, rfl, hm.frames, hm.conns⟩⟩
  | heap _ => exact ⟨[], by simp, fun m hm => ⟨m, rfl, hm⟩⟩
  | added f i => exact ⟨_, rfl, fun m hm => ⟨m, rfl, hm⟩⟩
  | removed f i => exact ⟨_, rfl, fun m hm => ⟨m, rfl, hm⟩⟩

theorem Chain.mirror {s s' : EG E} (h : Chain GS.Cmd.noSelf s s') (hw : WF s.gs.g) (hp : Paired s.gs.g) :
    ∃ l, s'.gs.trace = s.gs.trace ++ l ∧ ∀ m, MirrorOf s.gs.g m → ∃ m', m.replay (l.map Prod.fst) = some m' ∧ MirrorOf s'.gs.g m' := by
  induction h with
  | refl => exact ⟨[], by simp, fun m hm => ⟨m, rfl, hm⟩⟩
  | tail h0 h1 ih =>
    obtain ⟨l, a1, a2⟩ := ih
    obtain ⟨l', b1, b2⟩ := h1.mirror (Chain.wf h0 hw) (Chain.paired h0 hw hp)
    refine ⟨l ++ l', by rw [b1, a1, List.append_assoc], fun m hm => ?_⟩
    obtain ⟨m1, c1, c2⟩ := a2 m hm
    obtain ⟨m2, d1, d2⟩ := b2 m1 c2
    exact ⟨m2, by rw [List.map_append, Mirror.replay_append, c1]; exact d1, d2⟩

/-- no call adds an edge from a frame to itself -/
def Cmd.noSelf : Cmd E → Prop
  | .graph c => c.noSelf
  | _ => True

theorem Cmd.noSelf.within {c : Cmd E} (h : c.noSelf) : c.within GS.Cmd.noSelf := by
  cases c <;> first | exact h | exact trivial | exact ⟨fun _ => trivial, fun _ => trivial⟩

theorem run_wf {cs : List (Cmd E)} {heap : ItemId → ItemObj} {s : EG E} (h : run cs (init heap) = some s) : WF s.gs.g :=
  Chain.wf (P := fun _ => True) (run_chain (fun c _ => by cases c <;> simp [Cmd.within]) h) WF.empty

theorem run_paired {cs : List (Cmd E)} (hcs : ∀ c ∈ cs, c.noSelf) {heap : ItemId → ItemObj} {s : EG E}
    (h : run cs (init heap) = some s) : Paired s.gs.g :=
  Chain.paired (run_chain (fun c hc => (hcs c hc).within) h) WF.empty Paired.empty

end EG
end Verif
