import Verif.Model.ItemLoop
import Verif.Lemmas.ItemRestore
/-! # Lemmas: the loop that removes chosen items -/

namespace Verif
namespace EG
variable {E : Type} [EdgeProp E]

/-- only the list of type `t` in frame `f` may have changed -/
structure OnlyList (f : FrameId) (t : TypeIdx) (s s' : EG E) : Prop where
  wf : WF s'.gs.g
  lists : ∀ x u, (x, u) ≠ (f, t) → ∀ l, getItems x u s' = .ok l s' ↔ getItems x u s = .ok l s
  verts : ∀ x, s'.gs.g.vertexOf x = s.gs.g.vertexOf x
  edges : s'.gs.g.edges = s.gs.g.edges
  subs : s'.gs.subs = s.gs.subs
  views : s'.gs.views = s.gs.views

theorem OnlyList.refl {f : FrameId} {t : TypeIdx} {s : EG E} (hw : WF s.gs.g) : OnlyList f t s s :=
  ⟨hw, fun _ _ _ _ => Iff.rfl, fun _ => rfl, rfl, rfl, rfl⟩

theorem OnlyList.trans {f : FrameId} {t : TypeIdx} {s s1 s2 : EG E} (h : OnlyList f t s s1) (k : OnlyList f t s1 s2) : OnlyList f t s s2 :=
  ⟨k.wf, fun x u hxu l => (k.lists x u hxu l).trans (h.lists x u hxu l), fun x => (k.verts x).trans (h.verts x), k.edges.trans h.edges,
    k.subs.trans h.subs, k.views.trans h.views⟩

/-- one removal through an iterator, exactly -/
theorem removeItemAt_exact {s : EG E} (hw : WF s.gs.g) {f : FrameId} {t : TypeIdx} {before after : List ItemId} {i : ItemId}
    (hl : getItemsT f t s = .ok (before ++ i :: after) s) (hfr : (s.heap i).frame = f) :
    ∃ s', removeItemAt f ⟨f, t, before.length⟩ s = .ok after s' ∧ OnlyList f t s s' ∧
      getItemsT f t s' = .ok (if after = [] then [] else before ++ after) s' ∧
      s'.heap = (setItemFrame i "" s).heap ∧ s'.gs.trace.map Prod.fst = s.gs.trace.map Prod.fst ++ [.itemRemoved f i] := by
  unfold getItemsT at hl
  cases hv : s.gs.g.vertexOf f with
  | none => simp [hv] at hl
  | some v =>
    simp only [hv] at hl
    cases hr : s.gs.g.findV v with
    | none => simp [hr] at hl
    | some r =>
      simp only [hr] at hl
      cases hg : r.prop.items.get t with
      | none => simp [hg] at hl
      | some l0 =>
        simp only [hg] at hl
        split at hl
        · simp at hl
        simp only [Res.ok.injEq, and_true] at hl
        subst hl
        have hrid := (G.findV_some hr).2
        have hlist : listOf f t s = some (before ++ i :: after) := by simp only [listOf, hv, hr, hg, Option.bind_some]
        have hidx : (before ++ i :: after)[before.length]? = some i := by simp
        have he : (before ++ i :: after).eraseIdx before.length = before ++ after := by
          simp [List.eraseIdx_append_of_length_le]
        have hd : (before ++ after).drop before.length = after := by simp
        let h : EFrame → EFrame := fun p =>
          if after = [] then EFrame.eraseType t (EFrame.setList t (before ++ after) p) else EFrame.setList t (before ++ after) p
        have hother : ∀ (p : EFrame) u, u ≠ t → (h p).items.get u = p.items.get u := by
          intro p u hu
          simp only [h]
          split
          · simp only [EFrame.eraseType, EFrame.setList]
            rw [AMap.get_erase, if_neg (Ne.symm hu), AMap.get_set_ne (Ne.symm hu)]
          · simp only [EFrame.setList]
            rw [AMap.get_set_ne (Ne.symm hu)]
        have hself : (h r.prop).items.get t = if after = [] then none else some (before ++ after) := by
          simp only [h]
          split
          · simp only [EFrame.eraseType]; rw [AMap.get_erase, if_pos rfl]
          · simp only [EFrame.setList]; rw [AMap.get_set_self]
        have hid : ∀ p, FrameProp.getId (h p) = FrameProp.getId p := by
          intro p; simp only [h]; split <;> rfl
        obtain ⟨s', e1, e2, e3, e4, e5, e6⟩ : ∃ s', removeItemAt f ⟨f, t, before.length⟩ s = .ok after s' ∧
            s'.gs.g = s.gs.g.modV v h ∧ s'.gs.subs = s.gs.subs ∧ s'.gs.views = s.gs.views ∧
            s'.heap = (setItemFrame i "" s).heap ∧
            s'.gs.trace.map Prod.fst = s.gs.trace.map Prod.fst ++ [.itemRemoved f i] := by
          by_cases ha : after = []
          · subst ha
            refine ⟨modFrame v (EFrame.eraseType t) (notify (.itemRemoved f i)
              (setItemFrame i "" (modFrame v (EFrame.setList t (before ++ [])) s))), ?_, ?_, rfl, rfl, rfl, ?_⟩
            · unfold removeItemAt
              simp only [hv, hlist, Option.bind_some, hidx, hfr, ne_eq, not_true_eq_false, if_false, he, hd, if_true]
            · show (s.gs.g.modV v (EFrame.setList t (before ++ []))).modV v (EFrame.eraseType t) = _
              rw [G.modV_modV]
              congr 1
            · simp [modFrame, notify, GS.notify, setItemFrame]
          · refine ⟨notify (.itemRemoved f i) (setItemFrame i "" (modFrame v (EFrame.setList t (before ++ after)) s)),
              ?_, ?_, rfl, rfl, rfl, ?_⟩
            · unfold removeItemAt
              simp only [hv, hlist, Option.bind_some, hidx, hfr, ne_eq, not_true_eq_false, if_false, he, hd, ha]
            · show s.gs.g.modV v (EFrame.setList t (before ++ after)) = _
              congr 1
              funext p; simp [h, ha]
            · simp [modFrame, notify, GS.notify, setItemFrame]
        have hfind : s'.gs.g.findV v = some { r with prop := h r.prop } := by
          rw [e2, G.findV_modV, hr]; simp [hrid]
        refine ⟨s', e1, ⟨by rw [e2]; exact hw.modV v hid, ?_, fun x => by rw [e2]; rfl, by rw [e2]; rfl, e3, e4⟩, ?_, e5, e6⟩
        · intro x u hxu l
          unfold getItems
          have hvx : s'.gs.g.vertexOf x = s.gs.g.vertexOf x := by rw [e2]; rfl
          rw [hvx]
          cases hx : s.gs.g.vertexOf x with
          | none => simp
          | some w =>
            obtain ⟨q, hq, -⟩ := hw.live_of_vertexOf hx
            simp only [hq]
            by_cases hwv : w = v
            · subst hwv
              have hxf : x = f := hw.vertexOf_inj hx hv
              have hut : u ≠ t := by rintro rfl; exact hxu (by rw [hxf])
              rw [hr] at hq; cases hq
              simp only [hfind, hother _ _ hut]
              cases r.prop.items.get u <;> simp
            · have : s'.gs.g.findV w = some q := by
                rw [e2, G.findV_modV, hq]; simp [(G.findV_some hq).2, hwv]
              simp only [this]
              cases q.prop.items.get u <;> simp
        · unfold getItemsT
          have hv' : s'.gs.g.vertexOf f = some v := by rw [e2]; exact hv
          simp only [hv', hfind, hself]
          by_cases ha : after = []
          · simp [ha]
          · simp [ha]

/-- is the last item of the list chosen? -/
def lastChosen (chosen : ItemId → Bool) (l : List ItemId) : Bool := (l.getLast?.map chosen).getD false

theorem removeLoop_exact (f : FrameId) (t : TypeIdx) (chosen : ItemId → Bool) (rest : List ItemId) : ∀ (before : List ItemId) (s : EG E),
    WF s.gs.g → getItemsT f t s = .ok (before ++ rest) s → rest.Nodup → (∀ i ∈ rest, chosen i = true → (s.heap i).frame = f) →
    ∀ n, rest.length ≤ n →
    ∃ s', removeLoop f t chosen n before.length rest s = .ok () s' ∧ OnlyList f t s s' ∧
      getItemsT f t s' = .ok (if lastChosen chosen rest then [] else before ++ rest.filter (fun i => !chosen i)) s' ∧
      (∀ j, s'.heap j = if j ∈ rest ∧ chosen j then { s.heap j with frame := "" } else s.heap j) ∧
      s'.gs.trace.map Prod.fst = s.gs.trace.map Prod.fst ++ (rest.filter chosen).map (.itemRemoved f) := by
  induction rest with
  | nil =>
    intro before s hw hl _ _ n _
    refine ⟨s, by cases n <;> rfl, .refl hw, ?_, by simp, by simp⟩
    simpa [lastChosen] using hl
  | cons i rest ih =>
    intro before s hw hl hnd hfr n hn
    cases n with
    | zero => simp at hn
    | succ n =>
      have hn' : rest.length ≤ n := by simpa using hn
      obtain ⟨hi, hnd'⟩ := List.nodup_cons.1 hnd
      cases hc : chosen i with
      | true =>
        obtain ⟨s1, e1, e2, e3, e4, e5⟩ := removeItemAt_exact hw hl (hfr i (by simp) hc)
        have hstep : removeLoop f t chosen (n + 1) before.length (i :: rest) s = removeLoop f t chosen n before.length rest s1 := by
          simp [removeLoop, hc, e1]
        rw [hstep]
        by_cases hr : rest = []
        · subst hr
          refine ⟨s1, by cases n <;> rfl, e2, ?_, ?_, ?_⟩
          · simpa [lastChosen, hc] using e3
          · intro j; rw [e4]; by_cases hj : j = i <;> simp [setItemFrame, hj, hc]
          · simpa [hc] using e5
        · rw [if_neg hr] at e3
          obtain ⟨s', k1, k2, k3, k4, k5⟩ := ih before s1 e2.wf e3 hnd' (fun j hj hcj => by
            rw [e4]
            have : j ≠ i := by rintro rfl; exact hi hj
            simpa [setItemFrame, this] using hfr j (List.mem_cons_of_mem _ hj) hcj) n hn'
          refine ⟨s', k1, e2.trans k2, ?_, ?_, ?_⟩
          · rw [k3]
            have : lastChosen chosen (i :: rest) = lastChosen chosen rest := by
              simp [lastChosen, List.getLast?_cons_of_ne_nil hr]
            rw [this]; simp [hc]
          · intro j
            rw [k4, e4]
            by_cases hj : j = i
            · subst hj; simp [setItemFrame, hi, hc]
            · simp [setItemFrame, hj]
          · rw [k5, e5]; simp [hc]
      | false =>
        have hstep : removeLoop f t chosen (n + 1) before.length (i :: rest) s = removeLoop f t chosen n (before ++ [i]).length rest s := by
          simp [removeLoop, hc]
        rw [hstep]
        obtain ⟨s', k1, k2, k3, k4, k5⟩ := ih (before ++ [i]) s hw (by simpa using hl) hnd'
          (fun j hj hcj => hfr j (List.mem_cons_of_mem _ hj) hcj) n hn'
        refine ⟨s', k1, k2, ?_, ?_, ?_⟩
        · rw [k3]
          by_cases hr : rest = []
          · subst hr; simp [lastChosen, hc]
          · have : lastChosen chosen (i :: rest) = lastChosen chosen rest := by
              simp [lastChosen, List.getLast?_cons_of_ne_nil hr]
            rw [this]; simp [hc]
        · intro j
          rw [k4]
          by_cases hj : j = i
          · subst hj; simp [hi, hc]
          · simp [hj]
        · rw [k5]; simp [hc]

/-- a chosen item that does not know its frame ends the loop in the assert -/
theorem removeLoop_foreign {f : FrameId} {t : TypeIdx} {chosen : ItemId → Bool} {j : ItemId} (hc : chosen j = true) :
    ∀ (rest before : List ItemId) (s : EG E), WF s.gs.g → getItemsT f t s = .ok (before ++ rest) s → j ∈ rest →
      (s.heap j).frame ≠ f → ∀ n, rest.length ≤ n → ∃ r, removeLoop f t chosen n before.length rest s = .ub r := by
  intro rest
  induction rest with
  | nil => intro _ _ _ _ h; simp at h
  | cons i rest ih =>
    intro before s hw hl hj hf n hn
    cases n with
    | zero => simp at hn
    | succ n =>
      have hn' : rest.length ≤ n := by simpa using hn
      cases hci : chosen i with
      | true =>
        by_cases hfi : (s.heap i).frame = f
        · have hji : j ≠ i := by rintro rfl; exact hf hfi
          have hjr : j ∈ rest := (List.mem_cons.1 hj).resolve_left hji
          obtain ⟨s1, e1, e2, e3, e4, -⟩ := removeItemAt_exact hw hl hfi
          rw [if_neg (List.ne_nil_of_mem hjr)] at e3
          obtain ⟨r, hr⟩ := ih before s1 e2.wf e3 hjr (by rw [e4]; simpa [setItemFrame, hji] using hf) n hn'
          exact ⟨r, by simpa [removeLoop, hci, e1] using hr⟩
        · refine ⟨"removeItemFromFrame: assert", ?_⟩
          have hrm : removeItemAt f ⟨f, t, before.length⟩ s = .ub "removeItemFromFrame: assert" := by
            unfold getItemsT at hl
            cases hv : s.gs.g.vertexOf f with
            | none => simp [hv] at hl
            | some v =>
              simp only [hv] at hl
              cases hr : s.gs.g.findV v with
              | none => simp [hr] at hl
              | some r =>
                simp only [hr] at hl
                cases hg : r.prop.items.get t with
                | none => simp [hg] at hl
                | some l0 =>
                  simp only [hg] at hl
                  split at hl
                  · simp at hl
                  simp only [Res.ok.injEq, and_true] at hl
                  subst hl
                  have hlist : listOf f t s = some (before ++ i :: rest) := by simp only [listOf, hv, hr, hg, Option.bind_some]
                  have hidx : (before ++ i :: rest)[before.length]? = some i := by simp
                  simp only [removeItemAt, hv, hlist, Option.bind_some, hidx, ne_eq, hfi, not_false_eq_true, if_true]
          simp [removeLoop, hci, hrm]
      | false =>
        have hji : j ≠ i := by rintro rfl; rw [hc] at hci; cases hci
        obtain ⟨r, hr⟩ := ih (before ++ [i]) s hw (by simpa using hl) ((List.mem_cons.1 hj).resolve_left hji) hf n hn'
        exact ⟨r, by simpa [removeLoop, hci] using hr⟩

/-- so does a chosen item that comes twice -/
theorem removeLoop_twice {f : FrameId} (hne : f ≠ "") {t : TypeIdx} {chosen : ItemId → Bool} {j : ItemId} (hc : chosen j = true) :
    ∀ (rest before : List ItemId) (s : EG E), WF s.gs.g → getItemsT f t s = .ok (before ++ rest) s →
      (∀ i ∈ rest, chosen i = true → (s.heap i).frame = f) → (∃ a b, rest = a ++ j :: b ∧ j ∈ a) →
      ∀ n, rest.length ≤ n → ∃ r, removeLoop f t chosen n before.length rest s = .ub r := by
  intro rest
  induction rest with
  | nil => rintro _ _ _ _ _ ⟨a, b, h, -⟩; simp at h
  | cons i rest ih =>
    rintro before s hw hl hfr ⟨a, b, hab, hja⟩ n hn
    cases n with
    | zero => simp at hn
    | succ n =>
      have hn' : rest.length ≤ n := by simpa using hn
      obtain ⟨a', rfl⟩ : ∃ a', a = i :: a' := by
        cases a with
        | nil => simp at hja
        | cons x a' => simp only [List.cons_append, List.cons.injEq] at hab; exact ⟨a', by rw [hab.1]⟩
      simp only [List.cons_append, List.cons.injEq, true_and] at hab
      have hjr : j ∈ rest := by rw [hab]; simp
      cases hci : chosen i with
      | true =>
        obtain ⟨s1, e1, e2, e3, e4, -⟩ := removeItemAt_exact hw hl (hfr i (by simp) hci)
        rw [if_neg (List.ne_nil_of_mem hjr)] at e3
        -- either the item that was removed is listed again, or the repeated item is still to come
        by_cases hir : i ∈ rest
        · have hfi : (s1.heap i).frame ≠ f := by rw [e4]; simpa [setItemFrame] using hne.symm
          have : ∃ r, removeLoop f t chosen n before.length rest s1 = .ub r := by
            exact removeLoop_foreign hci rest before s1 e2.wf e3 hir hfi n hn'
          obtain ⟨r, hr⟩ := this
          exact ⟨r, by simpa [removeLoop, hci, e1] using hr⟩
        · have hji : j ≠ i := by rintro rfl; exact hir hjr
          have hja' : j ∈ a' := (List.mem_cons.1 hja).resolve_left hji
          obtain ⟨r, hr⟩ := ih before s1 e2.wf e3 (fun k hk hck => by
            have : k ≠ i := by rintro rfl; exact hir hk
            rw [e4]; simpa [setItemFrame, this] using hfr k (List.mem_cons_of_mem _ hk) hck) ⟨a', b, hab, hja'⟩ n hn'
          exact ⟨r, by simpa [removeLoop, hci, e1] using hr⟩
      | false =>
        have hji : j ≠ i := by rintro rfl; rw [hc] at hci; cases hci
        have hja' : j ∈ a' := (List.mem_cons.1 hja).resolve_left hji
        obtain ⟨r, hr⟩ := ih (before ++ [i]) s hw (by simpa using hl) (fun k hk hck => hfr k (List.mem_cons_of_mem _ hk) hck)
          ⟨a', b, hab, hja'⟩ n hn'
        exact ⟨r, by simpa [removeLoop, hci] using hr⟩

end EG
end Verif
