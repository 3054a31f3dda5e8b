import Verif.Model.DispatchBack
import Mathlib.Data.List.Basic
/-! # Lemmas about dispatchers whose callbacks call back -/

namespace Verif
namespace RDisp

/-- what every finished call preserves: callbacks are only appended, entries of the log are only appended, deeper ones at that -/
def Ext (lo : Nat) (s s' : RDisp) : Prop :=
  (∀ k, s.d.callbacks k <+: s'.d.callbacks k) ∧ ∃ t, s'.log = s.log ++ t ∧ ∀ x ∈ t, lo ≤ x.1

theorem Ext.rfl' (lo : Nat) (s : RDisp) : Ext lo s s := ⟨fun _ => List.prefix_refl _, [], by simp, by simp⟩

theorem Ext.trans' {lo : Nat} {a b c : RDisp} (h : Ext lo a b) (h' : Ext lo b c) : Ext lo a c := by
  obtain ⟨p, t, ht, hl⟩ := h
  obtain ⟨p', t', ht', hl'⟩ := h'
  refine ⟨fun k => (p k).trans (p' k), t ++ t', by rw [ht', ht, List.append_assoc], ?_⟩
  intro x hx
  rcases List.mem_append.1 hx with hx | hx
  exacts [hl x hx, hl' x hx]

theorem Ext.weaken {lo hi : Nat} {a b : RDisp} (h : Ext hi a b) (hle : lo ≤ hi) : Ext lo a b :=
  ⟨h.1, h.2.choose, h.2.choose_spec.1, fun x hx => Nat.le_trans hle (h.2.choose_spec.2 x hx)⟩

/-- what a call appends to the callbacks for `k` -/
def adds (k : EventKind) : DCmd → List Nat
  | .addCallback k' c' => if k = k' then [c'] else []
  | _ => []

theorem exec_callbacks {c : DCmd} {d d' : Disp} (h : d.exec c = .ok () d') (k : EventKind) :
    d'.callbacks k = d.callbacks k ++ adds k c := by
  cases c with
  | addCallback k' c' =>
    simp only [Disp.exec, Res.ok.injEq, true_and] at h; subst h
    simp only [Disp.addCallback, adds]; split <;> simp
  | enable b => simp only [Disp.exec, Res.ok.injEq, true_and] at h; subst h; simp [adds, Disp.enable]
  | waitForFrame f =>
    simp only [Disp.exec, Res.ok.injEq, true_and] at h; subst h; simp [adds, Disp.waitForFrame, Disp.enable]
  | checkWaitingForFrames f =>
    simp only [Disp.exec, Res.ok.injEq, true_and] at h; subst h
    simp only [Disp.checkWaitingForFrames, adds]; split <;> simp
  | notify e =>
    simp only [adds, List.append_nil]
    simp only [Disp.exec, Disp.notify, Disp.forward, Disp.enable, Disp.checkWaitingForFrames] at h
    repeat' split at h
    all_goals first
      | (cases h; done)
      | (cases h; rfl)

theorem exec_never_throws {c : DCmd} {d d' : Disp} {x : Exn} : d.exec c ≠ .throw x d' := by
  intro h
  cases c <;> simp only [Disp.exec, reduceCtorEq, Disp.notify] at h
  repeat' split at h
  all_goals cases h

/-- the state after a finished call, if it is defined -/
def after : Res RDisp Unit → Option RDisp
  | .ok _ s => some s
  | .throw _ s => some s
  | .ub _ => none

theorem ext_all (act : CbAct) (n : Nat) :
    (∀ dep e s r s', notify act n dep e s = some r → after r = some s' → Ext dep s s') ∧
    (∀ dep e i s r s', loop act n dep e i s = some r → after r = some s' → Ext dep s s') ∧
    (∀ dep cs b s r s', body act n dep cs b s = some r → after r = some s' → Ext (dep + 1) s s') := by
  induction n with
  | zero => refine ⟨?_, ?_, ?_⟩ <;> intros <;> simp_all [notify, loop, body]
  | succ n ih =>
    obtain ⟨ihN, ihL, ihB⟩ := ih
    refine ⟨?_, ?_, ?_⟩
    · intro dep e s r s' h ha
      rw [notify] at h
      split at h
      · exact ihL _ _ _ _ _ _ h ha
      · have key : ∀ d, s.d.notify e = .ok () d → Ext dep s { s with d := d } := by
          intro d hd
          refine ⟨fun k => ?_, [], by simp, by simp⟩
          have := exec_callbacks (c := .notify e) (d := s.d) (d' := d) hd k
          simp only [this]; exact List.prefix_append _ _
        split at h
        · next hd => cases h; cases ha; exact key _ hd
        · next hd => exact absurd hd (exec_never_throws (c := .notify e))
        · cases h; cases ha
    · intro dep e i s r s' h ha
      rw [loop] at h
      split at h
      · cases h; cases ha; exact Ext.rfl' _ _
      · next c hc =>
        have h0 : Ext dep s { s with log := s.log ++ [(dep, c, e)] } :=
          ⟨fun _ => List.prefix_refl _, [(dep, c, e)], rfl, by simp⟩
        split at h
        · next s1 hb =>
          exact h0.trans' (((ihB _ _ _ _ _ _ hb rfl).weaken (Nat.le_succ _)).trans' (ihL _ _ _ _ _ _ h ha))
        · exact h0.trans' ((ihB _ _ _ _ _ _ h ha).weaken (Nat.le_succ _))
    · intro dep cs b s r s' h ha
      cases cs with
      | nil =>
        rw [body] at h
        split at h <;> cases h <;> cases ha <;> exact Ext.rfl' _ _
      | cons c cs =>
        have key : ∀ d, s.d.exec c = .ok () d → Ext (dep + 1) s { s with d := d } := by
          intro d hd
          refine ⟨fun k => ?_, [], by simp, by simp⟩
          have := exec_callbacks hd k
          simp only [this]; exact List.prefix_append _ _
        rw [body.eq_def] at h
        simp only at h
        split at h
        · split at h
          · next s1 hb => exact (ihN _ _ _ _ _ hb rfl).trans' (ihB _ _ _ _ _ _ h ha)
          · exact ihN _ _ _ _ _ h ha
        · split at h
          · next d hd => exact (key _ hd).trans' (ihB _ _ _ _ _ _ h ha)
          · next hd => exact absurd hd exec_never_throws
          · cases h; cases ha

/-- the entries of the log of one depth -/
def atDepth (dep : Nat) (t : List (Nat × Nat × Event)) : List (Nat × Nat × Event) := t.filter (fun x => x.1 = dep)

theorem atDepth_deeper {dep : Nat} {t : List (Nat × Nat × Event)} (h : ∀ x ∈ t, dep + 1 ≤ x.1) : atDepth dep t = [] := by
  simp only [atDepth, List.filter_eq_nil_iff, decide_eq_true_eq]
  intro x hx he
  have := h x hx
  omega

theorem loop_exact (act : CbAct) (n : Nat) : ∀ dep e i s r s', loop act n dep e i s = some r → after r = some s' →
    i ≤ (s.d.callbacks e.kind).length →
    ∃ t, s'.log = s.log ++ t ∧
      ((∀ x, r ≠ .throw x s') → atDepth dep t = ((s'.d.callbacks e.kind).drop i).map fun c => (dep, c, e)) ∧
      (∀ x, r = .throw x s' → ∃ j, i ≤ j ∧ j < (s'.d.callbacks e.kind).length ∧
        atDepth dep t = (((s'.d.callbacks e.kind).take (j + 1)).drop i).map fun c => (dep, c, e)) := by
  induction n with
  | zero => intro dep e i s r s' h; simp [loop] at h
  | succ n ih =>
    intro dep e i s r s' h ha hi
    rw [loop] at h
    split at h
    · next hn =>
      cases h; cases ha
      refine ⟨[], by simp, fun _ => ?_, fun x hx => by cases hx⟩
      rw [List.drop_eq_nil_of_le (List.getElem?_eq_none_iff.1 hn)]
      rfl
    · next c hc =>
      obtain ⟨hlt, hcc⟩ := List.getElem?_eq_some_iff.1 hc
      have hhead : ∀ s2 : RDisp, (∀ k, s.d.callbacks k <+: s2.d.callbacks k) →
          (s2.d.callbacks e.kind)[i]? = some c ∧ i < (s2.d.callbacks e.kind).length := by
        intro s2 hp
        obtain ⟨q, hq⟩ := hp e.kind
        refine ⟨by rw [← hq, List.getElem?_append_left hlt, hc], by rw [← hq, List.length_append]; omega⟩
      split at h
      · next s1 hb =>
        obtain ⟨p1, t1, ht1, hl1⟩ := (ext_all act n).2.2 _ _ _ _ _ _ hb rfl
        obtain ⟨p2, -⟩ := (ext_all act n).2.1 _ _ _ _ _ _ h ha
        have hi1 := (hhead s1 p1).2
        obtain ⟨t2, ht2, hok, hth⟩ := ih dep e (i + 1) s1 r s' h ha hi1
        have hi2 := hhead s' (fun k => (p1 k).trans (p2 k))
        obtain ⟨hlt2, hcc2⟩ := List.getElem?_eq_some_iff.1 hi2.1
        refine ⟨(dep, c, e) :: (t1 ++ t2), by rw [ht2, ht1]; simp, fun hr => ?_, fun x hx => ?_⟩
        · have : atDepth dep ((dep, c, e) :: (t1 ++ t2)) = (dep, c, e) :: (atDepth dep t1 ++ atDepth dep t2) := by
            simp [atDepth]
          rw [this, atDepth_deeper hl1, hok hr, List.drop_eq_getElem_cons hlt2, hcc2]
          rfl
        · obtain ⟨j, h1, h2, h3⟩ := hth x hx
          refine ⟨j, by omega, h2, ?_⟩
          have : atDepth dep ((dep, c, e) :: (t1 ++ t2)) = (dep, c, e) :: (atDepth dep t1 ++ atDepth dep t2) := by
            simp [atDepth]
          have hl : i < ((s'.d.callbacks e.kind).take (j + 1)).length := by rw [List.length_take]; omega
          rw [this, atDepth_deeper hl1, h3, List.drop_eq_getElem_cons hl, List.getElem_take, hcc2]
          rfl
      · next hnok =>
        obtain ⟨p1, t1, ht1, hl1⟩ := (ext_all act n).2.2 _ _ _ _ _ _ h ha
        have hi1 := hhead s' p1
        obtain ⟨hlt1, hcc1⟩ := List.getElem?_eq_some_iff.1 hi1.1
        refine ⟨(dep, c, e) :: t1, by rw [ht1]; simp, fun hr => ?_, fun x hx => ⟨i, Nat.le_refl _, hlt1, ?_⟩⟩
        · cases r with
          | ok u s2 => exact absurd h (hnok _ s2)
          | throw x s2 => cases ha; exact absurd rfl (hr x)
          | ub m => cases ha
        · have : atDepth dep ((dep, c, e) :: t1) = (dep, c, e) :: atDepth dep t1 := by simp [atDepth]
          have hl : i < ((s'.d.callbacks e.kind).take (i + 1)).length := by rw [List.length_take]; omega
          rw [this, atDepth_deeper hl1, List.drop_eq_getElem_cons hl, List.getElem_take, hcc1,
            List.drop_eq_nil_of_le (by rw [List.length_take]; omega)]
          rfl

/-- no callback registers a callback for `k` -/
def NoReg (act : CbAct) (k : EventKind) : Prop := ∀ c e c', DCmd.addCallback k c' ∉ (act c e).1

theorem adds_nil {k : EventKind} {c : DCmd} (h : ∀ c', c ≠ .addCallback k c') : adds k c = [] := by
  cases c with
  | addCallback k' c' =>
    simp only [adds]
    split
    · next hk => subst hk; exact absurd rfl (h c')
    · rfl
  | _ => rfl

theorem same_all (act : CbAct) (k : EventKind) (hk : NoReg act k) (n : Nat) :
    (∀ dep e s r s', notify act n dep e s = some r → after r = some s' → s'.d.callbacks k = s.d.callbacks k) ∧
    (∀ dep e i s r s', loop act n dep e i s = some r → after r = some s' → s'.d.callbacks k = s.d.callbacks k) ∧
    (∀ dep cs b s r s', (∀ c', DCmd.addCallback k c' ∉ cs) → body act n dep cs b s = some r → after r = some s' →
      s'.d.callbacks k = s.d.callbacks k) := by
  induction n with
  | zero => refine ⟨?_, ?_, ?_⟩ <;> intros <;> simp_all [notify, loop, body]
  | succ n ih =>
    obtain ⟨ihN, ihL, ihB⟩ := ih
    refine ⟨?_, ?_, ?_⟩
    · intro dep e s r s' h ha
      rw [notify] at h
      split at h
      · exact ihL _ _ _ _ _ _ h ha
      · split at h
        · next d hd =>
          cases h; cases ha
          have := exec_callbacks (c := .notify e) hd k
          simpa [adds] using this
        · next hd => exact absurd hd (exec_never_throws (c := .notify e))
        · cases h; cases ha
    · intro dep e i s r s' h ha
      rw [loop] at h
      split at h
      · cases h; cases ha; rfl
      · next c hc =>
        split at h
        · next s1 hb => rw [ihL _ _ _ _ _ _ h ha, ihB _ _ _ _ _ _ (hk c e) hb rfl]
        · rw [ihB _ _ _ _ _ _ (hk c e) h ha]
    · intro dep cs b s r s' hcs h ha
      cases cs with
      | nil =>
        rw [body] at h
        split at h <;> cases h <;> cases ha <;> rfl
      | cons c cs =>
        have hcs' : ∀ c', DCmd.addCallback k c' ∉ cs := fun c' hm => hcs c' (List.mem_cons_of_mem _ hm)
        rw [body.eq_def] at h
        simp only at h
        split at h
        · split at h
          · next s1 hb => rw [ihB _ _ _ _ _ _ hcs' h ha]; exact ihN _ _ _ _ _ hb rfl
          · exact ihN _ _ _ _ _ h ha
        · split at h
          · next d hd =>
            rw [ihB _ _ _ _ _ _ hcs' h ha, exec_callbacks hd k,
              adds_nil (fun c' hc => hcs c' (by rw [hc]; exact List.mem_cons_self)), List.append_nil]
          · next hd => exact absurd hd exec_never_throws
          · cases h; cases ha

/-- more steps do not change a finished call -/
theorem mono_all (act : CbAct) (n : Nat) :
    (∀ dep e s r, notify act n dep e s = some r → notify act (n + 1) dep e s = some r) ∧
    (∀ dep e i s r, loop act n dep e i s = some r → loop act (n + 1) dep e i s = some r) ∧
    (∀ dep cs b s r, body act n dep cs b s = some r → body act (n + 1) dep cs b s = some r) := by
  induction n with
  | zero => refine ⟨?_, ?_, ?_⟩ <;> intros <;> simp_all [notify, loop, body]
  | succ n ih =>
    obtain ⟨ihN, ihL, ihB⟩ := ih
    refine ⟨?_, ?_, ?_⟩
    · intro dep e s r h
      rw [notify] at h ⊢
      split at h
      · next hen => rw [if_pos hen]; exact ihL _ _ _ _ _ h
      · next hen => rw [if_neg hen]; exact h
    · intro dep e i s r h
      rw [loop] at h ⊢
      split at h
      · exact h
      · next c hc =>
        split at h
        · next s1 hb => rw [ihB _ _ _ _ _ hb]; exact ihL _ _ _ _ _ h
        · next hnok =>
          rw [ihB _ _ _ _ _ h]
          cases r with
          | ok u s2 => exact absurd h (hnok _ s2)
          | _ => rfl
    · intro dep cs b s r h
      cases cs with
      | nil => rw [body] at h ⊢; exact h
      | cons c cs =>
        rw [body.eq_def] at h ⊢
        simp only at h ⊢
        split at h
        · split at h
          · next s1 hb => simp only [ihN _ _ _ _ hb]; exact ihB _ _ _ _ _ h
          · next hnok =>
            simp only [ihN _ _ _ _ h]
            cases r with
            | ok u s2 => exact absurd h (hnok _ s2)
            | _ => rfl
        · next hne =>
          split at h
          · exact ihB _ _ _ _ _ h
          · exact h
          · exact h

theorem notify_mono {act : CbAct} {n m : Nat} (hle : n ≤ m) {dep : Nat} {e : Event} {s : RDisp} {r : Res RDisp Unit}
    (h : notify act n dep e s = some r) : notify act m dep e s = some r := by
  induction hle with
  | refl => exact h
  | step _ ih => exact (mono_all act _).1 _ _ _ _ ih

theorem loop_mono {act : CbAct} {n m : Nat} (hle : n ≤ m) {dep i : Nat} {e : Event} {s : RDisp} {r : Res RDisp Unit}
    (h : loop act n dep e i s = some r) : loop act m dep e i s = some r := by
  induction hle with
  | refl => exact h
  | step _ ih => exact (mono_all act _).2.1 _ _ _ _ _ ih

theorem body_mono {act : CbAct} {n m : Nat} (hle : n ≤ m) {dep : Nat} {cs : List DCmd} {b : Bool} {s : RDisp}
    {r : Res RDisp Unit} (h : body act n dep cs b s = some r) : body act m dep cs b s = some r := by
  induction hle with
  | refl => exact h
  | step _ ih => exact (mono_all act _).2.2 _ _ _ _ _ ih

theorem terminates (act : CbAct) (rank : Event → Nat) (K : EventKind → Prop)
    (hreg : ∀ c e k c', DCmd.addCallback k c' ∈ (act c e).1 → K k)
    (hcause : ∀ c e e', DCmd.notify e' ∈ (act c e).1 → ¬ K e'.kind ∧ rank e' < rank e) :
    ∀ m e, rank e < m → ¬ K e.kind → ∀ dep s, ∃ n r, notify act n dep e s = some r := by
  intro m
  induction m with
  | zero => intro e h; omega
  | succ m ih =>
    intro e hm hK
    have hno : NoReg act e.kind := fun c e' c' hc => hK (hreg c e' _ c' hc)
    have hbody : ∀ cs : List DCmd, (∀ e', DCmd.notify e' ∈ cs → ¬ K e'.kind ∧ rank e' < rank e) → ∀ dep b s,
        ∃ n r, body act n dep cs b s = some r := by
      intro cs
      induction cs with
      | nil =>
        intro _ dep b s
        refine ⟨1, if b then .throw (.runtimeError "callback") s else .ok () s, ?_⟩
        rw [body]; split <;> rfl
      | cons c cs ihc =>
        intro hcs dep b s
        have hcs' : ∀ e', DCmd.notify e' ∈ cs → ¬ K e'.kind ∧ rank e' < rank e := fun e' h => hcs e' (List.mem_cons_of_mem _ h)
        cases c with
        | notify e' =>
          obtain ⟨h1, h2⟩ := hcs e' List.mem_cons_self
          obtain ⟨n1, r1, hr1⟩ := ih e' (by omega) h1 (dep + 1) s
          cases r1 with
          | ok u s1 =>
            obtain ⟨n2, r2, hr2⟩ := ihc hcs' dep b s1
            refine ⟨max n1 n2 + 1, r2, ?_⟩
            rw [body.eq_def]
            simp only [notify_mono (Nat.le_max_left n1 n2) hr1]
            exact body_mono (Nat.le_max_right n1 n2) hr2
          | throw x s1 => exact ⟨n1 + 1, .throw x s1, by rw [body.eq_def]; simp only [hr1]⟩
          | ub x => exact ⟨n1 + 1, .ub x, by rw [body.eq_def]; simp only [hr1]⟩
        | addCallback k c' =>
          obtain ⟨n, r, hr⟩ := ihc hcs' dep b { s with d := s.d.addCallback k c' }
          exact ⟨n + 1, r, by rw [body.eq_def]; simpa only [Disp.exec] using hr⟩
        | enable x =>
          obtain ⟨n, r, hr⟩ := ihc hcs' dep b { s with d := s.d.enable x }
          exact ⟨n + 1, r, by rw [body.eq_def]; simpa only [Disp.exec] using hr⟩
        | waitForFrame f =>
          obtain ⟨n, r, hr⟩ := ihc hcs' dep b { s with d := s.d.waitForFrame f }
          exact ⟨n + 1, r, by rw [body.eq_def]; simpa only [Disp.exec] using hr⟩
        | checkWaitingForFrames f =>
          obtain ⟨n, r, hr⟩ := ihc hcs' dep b { s with d := (s.d.checkWaitingForFrames f).2 }
          exact ⟨n + 1, r, by rw [body.eq_def]; simpa only [Disp.exec] using hr⟩
    have hloop : ∀ j i dep s, (s.d.callbacks e.kind).length - i < j → ∃ n r, loop act n dep e i s = some r := by
      intro j
      induction j with
      | zero => intro i dep s h; omega
      | succ j ihj =>
        intro i dep s hj
        rcases hc : (s.d.callbacks e.kind)[i]? with _ | c
        · exact ⟨1, .ok () s, by rw [loop]; simp only [hc]⟩
        · obtain ⟨n1, r1, hr1⟩ := hbody (act c e).1 (hcause c e) dep (act c e).2 { s with log := s.log ++ [(dep, c, e)] }
          cases r1 with
          | ok u s1 =>
            have hs := (same_all act e.kind hno n1).2.2 _ _ _ _ _ _ (hno c e) hr1 rfl
            have hlt : i < (s.d.callbacks e.kind).length := by
              obtain ⟨h, -⟩ := List.getElem?_eq_some_iff.1 hc; exact h
            obtain ⟨n2, r2, hr2⟩ := ihj (i + 1) dep s1 (by rw [hs]; simp only; omega)
            refine ⟨max n1 n2 + 1, r2, ?_⟩
            rw [loop]
            simp only [hc, body_mono (Nat.le_max_left n1 n2) hr1]
            exact loop_mono (Nat.le_max_right n1 n2) hr2
          | throw x s1 => exact ⟨n1 + 1, .throw x s1, by rw [loop]; simp only [hc, hr1]⟩
          | ub x => exact ⟨n1 + 1, .ub x, by rw [loop]; simp only [hc, hr1]⟩
    intro dep s
    by_cases hen : s.d.enabled = true
    · obtain ⟨n, r, hr⟩ := hloop _ 0 dep s (Nat.lt_succ_self _)
      exact ⟨n + 1, r, by rw [notify, if_pos hen]; exact hr⟩
    · rcases hd : s.d.notify e with ⟨u, d⟩ | ⟨x, d⟩ | x
      · exact ⟨1, .ok () { s with d := d }, by rw [notify, if_neg hen]; simp only [hd]⟩
      · exact ⟨1, .throw x { s with d := d }, by rw [notify, if_neg hen]; simp only [hd]⟩
      · exact ⟨1, .ub x, by rw [notify, if_neg hen]; simp only [hd]⟩

/-- a loop whose callbacks always register one more is never finished -/
theorem endless (act : CbAct) (k : EventKind) (h : ∀ c e, e.kind = k → ∃ c', act c e = ([.addCallback k c'], false)) (n : Nat) :
    ∀ dep e i s, e.kind = k → i < (s.d.callbacks k).length → loop act n dep e i s = none := by
  induction n with
  | zero => intro dep e i s _ _; rw [loop]
  | succ n ih =>
    intro dep e i s he hi
    have hc : (s.d.callbacks e.kind)[i]? = some (s.d.callbacks k)[i] := by rw [he]; exact List.getElem?_eq_getElem hi
    obtain ⟨c', hact⟩ := h (s.d.callbacks k)[i] e he
    rw [loop]
    simp only [hc, hact]
    rcases n with _ | _ | n
    · rw [body]
    · rw [body.eq_def]; simp only [Disp.exec]; rw [body]
    · rw [body.eq_def]
      simp only [Disp.exec]
      rw [body, if_neg (by simp)]
      refine ih dep e (i + 1) _ he ?_
      simp only [Disp.addCallback, if_true, List.length_append, List.length_singleton]
      omega

/-- callbacks that do nothing -/
theorem loop_passive (act : CbAct) (e : Event) (h : ∀ c, act c e = ([], false)) (dep : Nat) (s : RDisp) :
    ∀ j i log, (s.d.callbacks e.kind).length - i = j → i ≤ (s.d.callbacks e.kind).length →
    loop act (j + 2) dep e i { s with log := log } =
      some (.ok () { s with log := log ++ ((s.d.callbacks e.kind).drop i).map fun c => (dep, c, e) }) := by
  intro j
  induction j with
  | zero =>
    intro i log hj hi
    have : (s.d.callbacks e.kind)[i]? = none := List.getElem?_eq_none_iff.2 (by omega)
    rw [loop]
    simp only [this]
    rw [List.drop_eq_nil_of_le (by omega)]
    simp
  | succ j ih =>
    intro i log hj hi
    have hlt : i < (s.d.callbacks e.kind).length := by omega
    rw [loop]
    simp only [List.getElem?_eq_getElem hlt, h]
    rw [body, if_neg (by simp)]
    simp only
    rw [ih (i + 1) _ (by omega) (by omega), List.drop_eq_getElem_cons hlt, List.append_assoc]
    rfl

/-- no callback disables the dispatcher -/
def NoDisable (act : CbAct) : Prop := ∀ c e, DCmd.enable false ∉ (act c e).1 ∧ ∀ f, DCmd.waitForFrame f ∉ (act c e).1

theorem exec_enabled {c : DCmd} {d d' : Disp} (h : d.exec c = .ok () d') (hd : d.enabled = true) (h1 : c ≠ .enable false)
    (h2 : ∀ f, c ≠ .waitForFrame f) (h3 : ∀ e, c ≠ .notify e) : d'.enabled = true := by
  cases c with
  | addCallback k' c' => simp only [Disp.exec, Res.ok.injEq, true_and] at h; subst h; exact hd
  | enable b =>
    simp only [Disp.exec, Res.ok.injEq, true_and] at h; subst h
    cases b with
    | false => exact absurd rfl h1
    | true => rfl
  | waitForFrame f => exact absurd rfl (h2 f)
  | checkWaitingForFrames f =>
    simp only [Disp.exec, Res.ok.injEq, true_and] at h; subst h
    simp only [Disp.checkWaitingForFrames]; split <;> exact hd
  | notify e => exact absurd rfl (h3 e)

theorem enabled_all (act : CbAct) (ha : NoDisable act) (n : Nat) :
    (∀ dep e s s', notify act n dep e s = some (.ok () s') → s.d.enabled = true → s'.d.enabled = true) ∧
    (∀ dep e i s s', loop act n dep e i s = some (.ok () s') → s.d.enabled = true → s'.d.enabled = true) ∧
    (∀ dep cs b s s', DCmd.enable false ∉ cs → (∀ f, DCmd.waitForFrame f ∉ cs) → body act n dep cs b s = some (.ok () s') →
      s.d.enabled = true → s'.d.enabled = true) := by
  induction n with
  | zero => refine ⟨?_, ?_, ?_⟩ <;> intros <;> simp_all [notify, loop, body]
  | succ n ih =>
    obtain ⟨ihN, ihL, ihB⟩ := ih
    refine ⟨?_, ?_, ?_⟩
    · intro dep e s s' h hs
      rw [notify, if_pos hs] at h
      exact ihL _ _ _ _ _ h hs
    · intro dep e i s s' h hs
      rw [loop] at h
      split at h
      · cases h; exact hs
      · next c hc =>
        split at h
        · next s1 hb => exact ihL _ _ _ _ _ h (ihB _ _ _ _ _ (ha c e).1 (ha c e).2 hb hs)
        · exact ihB _ _ _ _ _ (ha c e).1 (ha c e).2 h hs
    · intro dep cs b s s' h1 h2 h hs
      cases cs with
      | nil =>
        rw [body] at h
        split at h <;> cases h
        exact hs
      | cons c cs =>
        have h1' : DCmd.enable false ∉ cs := fun hm => h1 (List.mem_cons_of_mem _ hm)
        have h2' : ∀ f, DCmd.waitForFrame f ∉ cs := fun f hm => h2 f (List.mem_cons_of_mem _ hm)
        rw [body.eq_def] at h
        simp only at h
        split at h
        · split at h
          · next s1 hb => exact ihB _ _ _ _ _ h1' h2' h (ihN _ _ _ _ hb hs)
          · exact ihN _ _ _ _ h hs
        · next hne =>
          split at h
          · next d hd =>
            refine ihB _ _ _ _ _ h1' h2' h ?_
            exact exec_enabled hd hs (fun hc => h1 (by rw [hc]; exact List.mem_cons_self))
              (fun f hc => h2 f (by rw [hc]; exact List.mem_cons_self)) (fun e hc => hne e hc)
          · cases h
          · cases h

theorem Ext.log_mem {lo : Nat} {s s' : RDisp} (h : Ext lo s s') {x : Nat × Nat × Event} (hx : x ∈ s.log) : x ∈ s'.log := by
  obtain ⟨-, t, ht, -⟩ := h
  rw [ht]; exact List.mem_append_left _ hx

theorem notify_calls {act : CbAct} {n dep : Nat} {e : Event} {s s' : RDisp} (hs : s.d.enabled = true)
    (h : notify act n dep e s = some (.ok () s')) : ∀ c ∈ s'.d.callbacks e.kind, (dep, c, e) ∈ s'.log := by
  cases n with
  | zero => simp [notify] at h
  | succ n =>
    rw [notify, if_pos hs] at h
    obtain ⟨t, ht, h1, -⟩ := loop_exact act n dep e 0 s _ s' h rfl (Nat.zero_le _)
    intro c hc
    have h2 := h1 (by intro x hx; cases hx)
    have h3 : (dep, c, e) ∈ atDepth dep t := by
      rw [h2, List.drop_zero]
      exact List.mem_map.2 ⟨c, hc, rfl⟩
    rw [ht]
    exact List.mem_append_right _ (List.mem_filter.1 h3).1

theorem body_causes (act : CbAct) (ha : NoDisable act) (n : Nat) : ∀ dep cs b s s', DCmd.enable false ∉ cs →
    (∀ f, DCmd.waitForFrame f ∉ cs) → body act n dep cs b s = some (.ok () s') → s.d.enabled = true →
    ∀ e', DCmd.notify e' ∈ cs → ∀ c ∈ s.d.callbacks e'.kind, (dep + 1, c, e') ∈ s'.log := by
  induction n with
  | zero => intro dep cs b s s' _ _ h; simp [body] at h
  | succ n ih =>
    intro dep cs b s s' h1 h2 h hs e' he c hc
    cases cs with
    | nil => cases he
    | cons x cs =>
      have h1' : DCmd.enable false ∉ cs := fun hm => h1 (List.mem_cons_of_mem _ hm)
      have h2' : ∀ f, DCmd.waitForFrame f ∉ cs := fun f hm => h2 f (List.mem_cons_of_mem _ hm)
      rw [body.eq_def] at h
      simp only at h
      split at h
      · next e2 =>
        split at h
        · next s1 hb =>
          have hext := (ext_all act n).1 _ _ _ _ _ hb rfl
          rcases List.mem_cons.1 he with he | he
          · cases he
            exact ((ext_all act n).2.2 _ _ _ _ _ _ h rfl).log_mem (notify_calls hs hb c ((hext.1 _).subset hc))
          · exact ih _ _ _ _ _ h1' h2' h ((enabled_all act ha n).1 _ _ _ _ hb hs) e' he c ((hext.1 _).subset hc)
        · next hnok => exact absurd h (hnok _ s')
      · next hne =>
        rcases List.mem_cons.1 he with he | he
        · exact absurd he.symm (hne e')
        · split at h
          · next d hd =>
            have hen := exec_enabled hd hs (fun hc => h1 (by rw [hc]; exact List.mem_cons_self))
              (fun f hc => h2 f (by rw [hc]; exact List.mem_cons_self)) (fun e hc => hne e hc)
            refine ih _ _ _ _ _ h1' h2' h hen e' he c ?_
            simp only [exec_callbacks hd]
            exact List.mem_append_left _ hc
          · cases h
          · cases h

theorem loop_causes (act : CbAct) (ha : NoDisable act) (n : Nat) : ∀ dep e i s s', loop act n dep e i s = some (.ok () s') →
    s.d.enabled = true → ∀ j c, i ≤ j → (s'.d.callbacks e.kind)[j]? = some c → ∀ e', DCmd.notify e' ∈ (act c e).1 →
    ∀ c' ∈ s.d.callbacks e'.kind, (dep + 1, c', e') ∈ s'.log := by
  induction n with
  | zero => intro dep e i s s' h; simp [loop] at h
  | succ n ih =>
    intro dep e i s s' h hs j c hij hj e' he c' hc'
    rw [loop] at h
    split at h
    · next hn =>
      cases h
      rw [List.getElem?_eq_none_iff] at hn
      obtain ⟨hlt, -⟩ := List.getElem?_eq_some_iff.1 hj
      omega
    · next c0 hc0 =>
      split at h
      · next s1 hb =>
        have hx1 := (ext_all act n).2.2 _ _ _ _ _ _ hb rfl
        have hx2 := (ext_all act n).2.1 _ _ _ _ _ _ h rfl
        by_cases hji : j = i
        · subst hji
          have : c = c0 := by
            obtain ⟨q, hq⟩ := (hx1.1 e.kind).trans (hx2.1 e.kind)
            obtain ⟨hlt, -⟩ := List.getElem?_eq_some_iff.1 hc0
            rw [← hq, List.getElem?_append_left (by simpa using hlt)] at hj
            simp only at hj
            rw [hc0] at hj
            exact (Option.some.inj hj).symm
          subst this
          exact hx2.log_mem (body_causes act ha n _ _ _ _ _ (ha c e).1 (ha c e).2 hb hs e' he c' hc')
        · exact ih dep e (i + 1) s1 s' h ((enabled_all act ha n).2.2 _ _ _ _ _ (ha c0 e).1 (ha c0 e).2 hb hs) j c (by omega) hj e' he c'
            ((hx1.1 _).subset hc')
      · next hnok => exact absurd h (hnok _ s')

end RDisp
end Verif
