import Verif.Lemmas.DispatchBack
/-!
# C90: callbacks may use the dispatcher while they are called

Full statement: while an event is delivered, callbacks may register callbacks, enable, disable, wait for frames, cause events and throw.
The running event goes to exactly the callbacks that were registered for its kind when it came, each once and in order; the delivery ends;
no registration is lost; and a callback that throws ends the delivery of the running events only.

Fails: a callback that is registered for the same kind meanwhile gets the running event as well, and a callback that registers itself (or
another one that does so) is never finished.
-/

namespace Verif
open RDisp

/-- Exactly: an enabled dispatcher whose delivery ends normally has called each callback that is registered for the kind at the end of the
delivery, once and in order (`dep` is the depth of the event; the calls for the events caused meanwhile are deeper). -/
theorem C90_exact (act : CbAct) (n dep : Nat) (e : Event) (s s' : RDisp) (hen : s.d.enabled = true)
    (h : RDisp.notify act n dep e s = some (.ok () s')) :
    ∃ t, s'.log = s.log ++ t ∧ t.filter (fun x => x.1 = dep) = (s'.d.callbacks e.kind).map (fun c => (dep, c, e)) ∧
      ∀ x ∈ t, dep ≤ x.1 := by
  cases n with
  | zero => simp [RDisp.notify] at h
  | succ n =>
    rw [RDisp.notify, if_pos hen] at h
    obtain ⟨t, ht, h1, -⟩ := loop_exact act n dep e 0 s _ s' h rfl (Nat.zero_le _)
    obtain ⟨-, t', ht', h2⟩ := (ext_all act n).2.1 _ _ _ _ _ _ h rfl
    have : t = t' := List.append_cancel_left (ht.symm.trans ht')
    subst this
    exact ⟨t, ht, by simpa [atDepth] using h1 (by intro x hx; cases hx), h2⟩

/-- A callback that throws: the callbacks up to it have been called, and no other one. -/
theorem C90_throw (act : CbAct) (n dep : Nat) (e : Event) (s s' : RDisp) (x : Exn) (hen : s.d.enabled = true)
    (h : RDisp.notify act n dep e s = some (.throw x s')) :
    ∃ t j, s'.log = s.log ++ t ∧ j < (s'.d.callbacks e.kind).length ∧
      t.filter (fun x => x.1 = dep) = ((s'.d.callbacks e.kind).take (j + 1)).map (fun c => (dep, c, e)) := by
  cases n with
  | zero => simp [RDisp.notify] at h
  | succ n =>
    rw [RDisp.notify, if_pos hen] at h
    obtain ⟨t, ht, -, h1⟩ := loop_exact act n dep e 0 s _ s' h rfl (Nat.zero_le _)
    obtain ⟨j, -, h2, h3⟩ := h1 x rfl
    exact ⟨t, j, ht, h2, by simpa [atDepth] using h3⟩

/-- No registration is lost or moved, whatever the callbacks do. -/
theorem C90_registrations_kept (act : CbAct) (n dep : Nat) (e : Event) (s s' : RDisp)
    (h : RDisp.notify act n dep e s = some (.ok () s') ∨ ∃ x, RDisp.notify act n dep e s = some (.throw x s')) (k : EventKind) :
    s.d.callbacks k <+: s'.d.callbacks k := by
  rcases h with h | ⟨x, h⟩
  · exact ((ext_all act n).1 _ _ _ _ _ h rfl).1 k
  · exact ((ext_all act n).1 _ _ _ _ _ h rfl).1 k

/-- A disabled dispatcher calls nothing. -/
theorem C90_disabled (act : CbAct) (n dep : Nat) (e : Event) (s s' : RDisp) (hen : s.d.enabled = false)
    (h : RDisp.notify act n dep e s = some (.ok () s')) : s'.log = s.log := by
  cases n with
  | zero => simp [RDisp.notify] at h
  | succ n =>
    rw [RDisp.notify, if_neg (by simp [hen])] at h
    split at h <;> cases h
    rfl

/-- If no callback registers callbacks for the kind of the event, exactly the callbacks that were registered when the event came are called,
whatever else the callbacks do (disabling the dispatcher does not stop the delivery). -/
theorem C90_registered_before_partial (act : CbAct) (n dep : Nat) (e : Event) (s s' : RDisp) (hen : s.d.enabled = true)
    (hno : ∀ c e' c', DCmd.addCallback e.kind c' ∉ (act c e').1)
    (h : RDisp.notify act n dep e s = some (.ok () s')) :
    ∃ t, s'.log = s.log ++ t ∧ t.filter (fun x => x.1 = dep) = (s.d.callbacks e.kind).map (fun c => (dep, c, e)) := by
  obtain ⟨t, h1, h2, -⟩ := C90_exact act n dep e s s' hen h
  rw [(same_all act e.kind hno n).1 _ _ _ _ _ h rfl] at h2
  exact ⟨t, h1, h2⟩

/-- The events that callbacks cause are delivered as well: if no callback disables the dispatcher, everything that was registered for a
caused event gets it (one deeper). -/
theorem C90_caused_events (act : CbAct) (n dep : Nat) (e : Event) (s s' : RDisp) (hen : s.d.enabled = true)
    (hd : ∀ c e', DCmd.enable false ∉ (act c e').1 ∧ ∀ f, DCmd.waitForFrame f ∉ (act c e').1)
    (h : RDisp.notify act n dep e s = some (.ok () s')) (c : Nat) (hc : c ∈ s.d.callbacks e.kind) (e' : Event)
    (he : DCmd.notify e' ∈ (act c e).1) (c' : Nat) (hc' : c' ∈ s.d.callbacks e'.kind) : (dep + 1, c', e') ∈ s'.log := by
  have hmem := ((ext_all act n).1 _ _ _ _ _ h rfl).1 e.kind |>.subset hc
  obtain ⟨j, hj⟩ := List.mem_iff_getElem?.1 hmem
  cases n with
  | zero => simp [RDisp.notify] at h
  | succ n =>
    rw [RDisp.notify, if_pos hen] at h
    exact loop_causes act hd n dep e 0 s s' h hen j c (Nat.zero_le _) hj e' he c' hc'

/-- The delivery ends if callbacks register callbacks only for kinds of events (`K`) that callbacks do not cause, and the events they
cause have a smaller rank. -/
theorem C90_ends_partial (act : CbAct) (rank : Event → Nat) (K : EventKind → Prop)
    (hreg : ∀ c e k c', DCmd.addCallback k c' ∈ (act c e).1 → K k)
    (hcause : ∀ c e e', DCmd.notify e' ∈ (act c e).1 → ¬ K e'.kind ∧ rank e' < rank e)
    (e : Event) (hK : ¬ K e.kind) (dep : Nat) (s : RDisp) :
    ∃ n r, ∀ m, n ≤ m → RDisp.notify act m dep e s = some r := by
  obtain ⟨n, r, h⟩ := terminates act rank K hreg hcause (rank e + 1) e (Nat.lt_succ_self _) hK dep s
  exact ⟨n, r, fun m hm => notify_mono hm h⟩

/-- Callbacks that do nothing: as in C38. -/
theorem C90_passive (act : CbAct) (e : Event) (h : ∀ c, act c e = ([], false)) (dep : Nat) (s : RDisp) (hen : s.d.enabled = true) :
    ∃ n, ∀ m, n ≤ m → RDisp.notify act m dep e s =
      some (.ok () { s with log := s.log ++ (s.d.callbacks e.kind).map fun c => (dep, c, e) }) := by
  refine ⟨(s.d.callbacks e.kind).length + 3, fun m hm => notify_mono hm ?_⟩
  rw [RDisp.notify, if_pos hen]
  exact loop_passive act e h dep s _ 0 s.log rfl (Nat.zero_le _)

/-- The delivery to callbacks that always register another one for the same kind is never finished. -/
theorem C90_endless_fails (act : CbAct) (k : EventKind) (h : ∀ c e, e.kind = k → ∃ c', act c e = ([.addCallback k c'], false))
    (e : Event) (he : e.kind = k) (s : RDisp) (hen : s.d.enabled = true) (hs : s.d.callbacks k ≠ []) (n dep : Nat) :
    RDisp.notify act n dep e s = none := by
  cases n with
  | zero => rw [RDisp.notify]
  | succ n =>
    rw [RDisp.notify, if_pos hen]
    exact endless act k h n dep e 0 s he (List.length_pos_of_ne_nil hs)

/-- callback 1 registers callback 2 for the same kind and disables the dispatcher; callback 3 causes an event when a frame is added;
callback 5 throws -/
def demoAct : CbAct := fun c e =>
  match c, e with
  | 1, e => ([.addCallback e.kind 2, .enable false], false)
  | 3, .frameAdded f => ([.notify (.edgeAdded f f 0)], false)
  | 5, _ => ([], true)
  | _, _ => ([], false)

/-- a dispatcher with callbacks for added frames and edges -/
def demoDisp (fs es : List Nat) : RDisp :=
  ⟨⟨true, some false, [], fun k => if k = .frameAdded then fs else if k = .edgeAdded then es else [], []⟩, []⟩

/-- The callbacks that were called, with depth: `none` if the delivery did not end normally. -/
def demoLog : Option (Res RDisp Unit) → Option (List (Nat × Nat × Event))
  | some (.ok _ s) => some s.log
  | _ => none

private theorem demoLog_some {r : Option (Res RDisp Unit)} {l : List (Nat × Nat × Event)} (h : demoLog r = some l) :
    ∃ s', r = some (.ok () s') ∧ s'.log = l := by
  unfold demoLog at h
  split at h
  · exact ⟨_, rfl, Option.some.inj h⟩
  · cases h

/-- The calls up to an exception that leaves the dispatcher. -/
def demoThrown : Option (Res RDisp Unit) → Option (Exn × List (Nat × Nat × Event))
  | some (.throw x s) => some (x, s.log)
  | _ => none

/-- A callback that was registered during the delivery is called for the running event. -/
theorem C90_new_callback_fails : ∃ act n dep e s s', s.d.enabled = true ∧ RDisp.notify act n dep e s = some (.ok () s') ∧
    2 ∉ s.d.callbacks e.kind ∧ (dep, 2, e) ∈ s'.log := by
  obtain ⟨s', h1, h2⟩ := demoLog_some (r := RDisp.notify demoAct 10 0 (.frameAdded "a") (demoDisp [1] []))
    (l := [(0, 1, .frameAdded "a"), (0, 2, .frameAdded "a")]) (by decide +kernel)
  exact ⟨demoAct, 10, 0, .frameAdded "a", demoDisp [1] [], s', rfl, h1, by decide, by rw [h2]; decide⟩

example : demoLog (RDisp.notify demoAct 20 0 (.frameAdded "a") (demoDisp [3, 1, 4] [4, 4])) =
    some [(0, 3, .frameAdded "a"), (1, 4, .edgeAdded "a" "a" 0), (1, 4, .edgeAdded "a" "a" 0), (0, 1, .frameAdded "a"),
      (0, 4, .frameAdded "a"), (0, 2, .frameAdded "a")] := by decide +kernel

example : demoLog (RDisp.notify demoAct 20 0 (.frameAdded "a") (demoDisp [1, 3] [4])) =
    some [(0, 1, .frameAdded "a"), (0, 3, .frameAdded "a"), (0, 2, .frameAdded "a")] := by decide +kernel

example : demoThrown (RDisp.notify demoAct 20 0 (.frameAdded "a") (demoDisp [4, 3, 4] [4, 5, 4])) =
    some (.runtimeError "callback", [(0, 4, .frameAdded "a"), (0, 3, .frameAdded "a"), (1, 4, .edgeAdded "a" "a" 0),
      (1, 5, .edgeAdded "a" "a" 0)]) := by decide +kernel

example (n : Nat) : RDisp.notify (fun c e => ([.addCallback e.kind c], false)) n 0 (.frameAdded "a") (demoDisp [7] []) = none :=
  C90_endless_fails _ .frameAdded (fun c _ h => ⟨c, by rw [h]⟩) _ rfl _ rfl (by decide) n 0

/-- a removed connection that is announced by a callback reaches the other callbacks -/
example : demoLog (RDisp.notify (fun c _ => if c = 3 then ([.notify (.edgeRemoved "a" "b")], false) else ([], false)) 20 0 (.frameAdded "a")
    ⟨⟨true, some false, [], fun k => if k = .frameAdded then [3] else if k = .edgeRemoved then [4] else [], []⟩, []⟩) =
    some [(0, 3, .frameAdded "a"), (1, 4, .edgeRemoved "a" "b")] := by decide +kernel

end Verif
