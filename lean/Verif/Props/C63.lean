import Verif.Model.Items
/-! # C63: every connected contents-changed callback is called once per change

The specification knows no slots: a connection lives until the callback is disconnected. -/

namespace Verif
open Signal

/-- The callbacks connected by the history `h` and not disconnected later, one entry per connection, in order of connection. -/
def survivors : List Op → List Nat
  | [] => []
  | .connect c :: h => if Op.disconnect c ∈ h then survivors h else c :: survivors h
  | .disconnect _ :: h => survivors h

/-- the connect and disconnect calls of a history -/
def ops : List Cmd → List Op
  | [] => []
  | .op o :: h => o :: ops h
  | .changed :: h => ops h

/-- The callbacks a history has to call: at every change the survivors of everything before. -/
def due : List Op → List Cmd → List Nat
  | _, [] => []
  | before, .op o :: h => due (before ++ [o]) h
  | before, .changed :: h => survivors before ++ due before h

namespace Signal

/-- all slots have different identities below `fresh` -/
structure Ok (s : Signal) : Prop where
  lt : ∀ x ∈ s.slots, x.1 < s.fresh
  nodup : (s.slots.map Prod.fst).Nodup

theorem init_ok : Ok init := ⟨by simp [init], by simp [init]⟩

theorem op_ok (o : Op) (s : Signal) (h : Ok s) : Ok (op o s) := by
  cases o with
  | connect c =>
    refine ⟨?_, ?_⟩
    · intro x hx
      simp only [op, List.mem_append, List.mem_singleton] at hx ⊢
      rcases hx with hx | rfl
      · exact Nat.lt_succ_of_lt (h.lt x hx)
      · exact Nat.lt_succ_self _
    · simp only [op, List.map_append, List.map_cons, List.map_nil]
      refine List.nodup_append.2 ⟨h.nodup, by simp, ?_⟩
      intro a ha b hb
      simp only [List.mem_singleton] at hb
      obtain ⟨x, hx, rfl⟩ := List.mem_map.1 ha
      have := h.lt x hx
      omega
  | disconnect c =>
    refine ⟨fun x hx => h.lt x ((List.mem_filter.1 hx).1), ?_⟩
    exact (List.filter_sublist.map _).nodup h.nodup

theorem foldl_ok (os : List Op) : ∀ s, Ok s → Ok (os.foldl (fun s o => op o s) s) := by
  induction os with
  | nil => exact fun _ h => h
  | cons o os ih => exact fun s h => ih _ (op_ok o s h)

theorem emit_ok (env : List Nat → List Op) (xs : List (Nat × Nat)) : ∀ s, Ok s → Ok (emit env xs s) := by
  induction xs with
  | nil => exact fun _ h => h
  | cons x xs ih =>
    intro s h
    unfold emit
    split
    · exact ih _ (foldl_ok _ _ ⟨h.lt, h.nodup⟩)
    · exact ih _ h

end Signal

theorem survivors_append_connect (c : Nat) : ∀ h, survivors (h ++ [.connect c]) = survivors h ++ [c] := by
  intro h
  induction h with
  | nil => simp [survivors]
  | cons o h ih =>
    cases o with
    | connect d => simp only [List.cons_append, survivors, ih, List.mem_append, List.mem_singleton]; simp; split <;> simp
    | disconnect d => simpa [survivors] using ih

theorem survivors_append_disconnect (c : Nat) : ∀ h, survivors (h ++ [.disconnect c]) = (survivors h).filter (· ≠ c) := by
  intro h
  induction h with
  | nil => simp [survivors]
  | cons o h ih =>
    cases o with
    | connect d =>
      simp only [List.cons_append, survivors, ih, List.mem_append, List.mem_singleton, Op.disconnect.injEq]
      by_cases hd : Op.disconnect d ∈ h
      · simp [hd]
      · by_cases hc : d = c
        · subst hc; simp [hd]
        · simp [hd, hc]
    | disconnect d => simpa [survivors] using ih

theorem emit_passive (xs : List (Nat × Nat)) : ∀ s : Signal, (∀ x ∈ xs, x ∈ s.slots) →
    emit (fun _ => []) xs s = { s with calls := s.calls ++ xs.map Prod.snd } := by
  induction xs with
  | nil => intro s _; simp [emit]
  | cons x xs ih =>
    intro s h
    unfold emit
    rw [if_pos (h x (List.mem_cons_self ..))]
    simp only [List.foldl_nil]
    rw [ih { s with calls := s.calls ++ [x.2] } (fun y hy => h y (List.mem_cons_of_mem _ hy))]
    simp

/-- With callbacks that do not connect or disconnect: the calls of any history are exactly the callbacks connected and not disconnected
since at each change, in order of connection. -/
theorem C63_called (h : List Cmd) : (Signal.run (fun _ => []) h Signal.init).calls = due [] h := by
  have key : ∀ (h : List Cmd) (b : List Op) (s : Signal), s.slots.map Prod.snd = survivors b →
      (Signal.run (fun _ => []) h s).calls = s.calls ++ due b h := by
    intro h
    induction h with
    | nil => intro b s _; simp [Signal.run, due]
    | cons c h ih =>
      intro b s hs
      cases c with
      | op o =>
        simp only [Signal.run, due]
        rw [ih (b ++ [o])]
        · cases o <;> rfl
        · cases o with
          | connect c => simp [Signal.op, survivors_append_connect, hs]
          | disconnect c =>
            rw [survivors_append_disconnect, ← hs]
            simp only [Signal.op, List.filter_map]
            rfl
      | changed =>
        simp only [Signal.run, due, Signal.contentsChanged]
        rw [emit_passive _ _ (fun _ hx => hx), ih b]
        · simp [hs]
        · exact hs
  simpa [Signal.init] using key h [] Signal.init (by simp [Signal.init, survivors])

/-- 1 connected twice, 2 connected, change, 1 disconnected, 3 connected, change, 1 connected again, change -/
example : (Signal.run (fun _ => []) [.op (.connect 1), .op (.connect 2), .op (.connect 1), .changed, .op (.disconnect 1), .op (.connect 3),
    .changed, .op (.connect 1), .changed] Signal.init).calls = [1, 2, 1, 2, 3, 2, 3, 1] := by decide

/-- Per connection: the number of calls of callback `c` by one more change is the number of its connections since it was last
disconnected. -/
theorem C63_count (h : List Cmd) (c : Nat) :
    (Signal.run (fun _ => []) (h ++ [.changed]) Signal.init).calls.count c =
      (Signal.run (fun _ => []) h Signal.init).calls.count c + (survivors (ops h)).count c := by
  rw [C63_called, C63_called]
  have : ∀ (h : List Cmd) b, due b (h ++ [.changed]) = due b h ++ survivors (b ++ ops h) := by
    intro h
    induction h with
    | nil => intro b; simp [due, ops]
    | cons c h ih =>
      intro b
      cases c with
      | op o => simp [due, ops, ih]
      | changed => simp [due, ops, ih]
  rw [this]
  simp

example : survivors (ops [.op (.connect 1), .op (.connect 1), .op (.disconnect 1), .op (.connect 1), .changed, .op (.connect 1)]) = [1, 1] := by
  decide

namespace Signal

theorem foldl_calls (os : List Op) : ∀ s : Signal, (os.foldl (fun s o => op o s) s).calls = s.calls := by
  induction os with
  | nil => exact fun _ => rfl
  | cons o os ih => intro s; rw [List.foldl_cons, ih]; cases o <;> rfl

/-- a slot stays until its callback is disconnected -/
theorem foldl_keep (x : Nat × Nat) (os : List Op) : ∀ s : Signal, x ∈ s.slots → Op.disconnect x.2 ∉ os →
    x ∈ (os.foldl (fun s o => op o s) s).slots := by
  induction os with
  | nil => exact fun _ h _ => h
  | cons o os ih =>
    intro s hx hn
    rw [List.foldl_cons]
    refine ih _ ?_ (fun h => hn (List.mem_cons_of_mem _ h))
    cases o with
    | connect c => exact List.mem_append_left _ hx
    | disconnect c =>
      refine List.mem_filter.2 ⟨hx, ?_⟩
      simp only [decide_eq_true_eq]
      rintro rfl
      exact hn (List.mem_cons_self ..)

/-- a slot below `fresh` that is gone stays gone -/
theorem foldl_gone (x : Nat × Nat) (os : List Op) : ∀ s : Signal, x.1 < s.fresh → x ∉ s.slots →
    x ∉ (os.foldl (fun s o => op o s) s).slots ∧ x.1 < (os.foldl (fun s o => op o s) s).fresh := by
  induction os with
  | nil => exact fun _ h h' => ⟨h', h⟩
  | cons o os ih =>
    intro s hl hx
    rw [List.foldl_cons]
    cases o with
    | connect c =>
      refine ih _ (Nat.lt_succ_of_lt hl) ?_
      simp only [op, List.mem_append, List.mem_singleton, not_or]
      refine ⟨hx, ?_⟩
      rintro rfl
      exact Nat.lt_irrefl _ hl
    | disconnect c => exact ih _ hl (fun h => hx ((List.mem_filter.1 h).1))

end Signal

/-- Callbacks that themselves connect and disconnect (`env`, arbitrary) while they are called: each connection there was before the
change is called at most once, in order, and connections made meanwhile are not called (the calls are a sublist); a callback that no
callback disconnects meanwhile is called for each of its connections. -/
theorem C63_reentrant (env : List Nat → List Op) (s : Signal) :
    ∃ called : List (Nat × Nat), (Signal.contentsChanged env s).calls = s.calls ++ called.map Prod.snd ∧ called.Sublist s.slots ∧
      ∀ x ∈ s.slots, (∀ k, 0 < k → k ≤ called.length → Op.disconnect x.2 ∉ env (s.calls ++ (called.take k).map Prod.snd)) → x ∈ called := by
  have key : ∀ (xs : List (Nat × Nat)) (s : Signal), ∃ called : List (Nat × Nat), (Signal.emit env xs s).calls = s.calls ++ called.map Prod.snd ∧
      called.Sublist xs ∧
      ∀ x ∈ xs, x ∈ s.slots → (∀ k, 0 < k → k ≤ called.length → Op.disconnect x.2 ∉ env (s.calls ++ (called.take k).map Prod.snd)) →
        x ∈ called := by
    intro xs
    induction xs with
    | nil => intro s; exact ⟨[], by simp [Signal.emit], List.Sublist.refl _, by simp⟩
    | cons y ys ih =>
      intro s
      unfold Signal.emit
      split
      · rename_i hy
        obtain ⟨called, h1, h2, h3⟩ := ih ((env (s.calls ++ [y.2])).foldl (fun s o => op o s) { s with calls := s.calls ++ [y.2] })
        refine ⟨y :: called, ?_, h2.cons_cons y, ?_⟩
        · rw [h1, Signal.foldl_calls]; simp
        · intro x hx hxs hno
          rcases List.mem_cons.1 hx with rfl | hx
          · exact List.mem_cons_self ..
          · refine List.mem_cons_of_mem _ (h3 x hx ?_ ?_)
            · refine Signal.foldl_keep x _ _ hxs ?_
              have := hno 1 (by omega) (by simp)
              simpa using this
            · intro k hk hk'
              rw [Signal.foldl_calls]
              have := hno (k + 1) (by omega) (by simpa using hk')
              simpa using this
      · rename_i hy
        obtain ⟨called, h1, h2, h3⟩ := ih s
        refine ⟨called, h1, h2.cons y, ?_⟩
        intro x hx hxs hno
        rcases List.mem_cons.1 hx with rfl | hx
        · exact absurd hxs hy
        · exact h3 x hx hxs hno
  obtain ⟨called, h1, h2, h3⟩ := key s.slots s
  exact ⟨called, h1, h2, fun x hx hno => h3 x hx hx hno⟩

/-- Every reachable signal state satisfies the hypothesis of `C63_disconnected`: the connections are different objects. -/
theorem C63_reachable (env : List Nat → List Op) (h : List Cmd) : Signal.Ok (Signal.run env h Signal.init) := by
  have key : ∀ (h : List Cmd) s, Signal.Ok s → Signal.Ok (Signal.run env h s) := by
    intro h
    induction h with
    | nil => exact fun _ hs => hs
    | cons c h ih =>
      intro s hs
      cases c with
      | op o => exact ih _ (Signal.op_ok o s hs)
      | changed => exact ih _ (Signal.emit_ok env _ _ hs)
  exact key h _ Signal.init_ok

/-- callback 1 disconnects 2 and connects 4 when it is called: 2 and 4 are not called in this change, 3 is; the next change calls 1, 3, 4 -/
example : (Signal.run (fun l => if l = [1] then [.disconnect 2, .connect 4] else [])
    [.op (.connect 1), .op (.connect 2), .op (.connect 3), .changed, .changed] Signal.init).calls = [1, 3, 1, 3, 4] := by decide

/-- A callback that a callback disconnects before its turn is not called by that change any more. -/
theorem C63_disconnected (env : List Nat → List Op) (s : Signal) (x : Nat × Nat) (c : Nat) (rest : List (Nat × Nat)) (i : Nat)
    (hs : Signal.Ok s) (hh : s.slots = (i, c) :: rest) (hx : x ∈ rest) (hd : Op.disconnect x.2 ∈ env (s.calls ++ [c])) :
    ∃ called : List (Nat × Nat), (Signal.contentsChanged env s).calls = s.calls ++ called.map Prod.snd ∧ called.Sublist s.slots ∧ x ∉ called := by
  have key : ∀ (xs : List (Nat × Nat)) (s : Signal), x.1 < s.fresh → x ∉ s.slots →
      ∃ called : List (Nat × Nat), (Signal.emit env xs s).calls = s.calls ++ called.map Prod.snd ∧ called.Sublist xs ∧ x ∉ called := by
    intro xs
    induction xs with
    | nil => intro s _ _; exact ⟨[], by simp [Signal.emit], List.Sublist.refl _, by simp⟩
    | cons y ys ih =>
      intro s hl hn
      unfold Signal.emit
      split
      · rename_i hy
        have hg := Signal.foldl_gone x (env (s.calls ++ [y.2])) { s with calls := s.calls ++ [y.2] } hl hn
        obtain ⟨called, h1, h2, h3⟩ := ih _ hg.2 hg.1
        refine ⟨y :: called, ?_, h2.cons_cons y, ?_⟩
        · rw [h1, Signal.foldl_calls]; simp
        · simp only [List.mem_cons, not_or]
          exact ⟨by rintro rfl; exact hn hy, h3⟩
      · obtain ⟨called, h1, h2, h3⟩ := ih s hl hn
        exact ⟨called, h1, h2.cons y, h3⟩
  have gone : ∀ (os : List Op) (s : Signal), x.1 < s.fresh → Op.disconnect x.2 ∈ os →
      x ∉ (os.foldl (fun s o => op o s) s).slots ∧ x.1 < (os.foldl (fun s o => op o s) s).fresh := by
    intro os
    induction os with
    | nil => intro s _ h; exact absurd h (by simp)
    | cons o os ih =>
      intro s hl h
      rw [List.foldl_cons]
      rcases List.mem_cons.1 h with rfl | h
      · refine Signal.foldl_gone x os _ hl ?_
        simp [Signal.op]
      · refine ih _ ?_ h
        cases o with
        | connect c => exact Nat.lt_succ_of_lt hl
        | disconnect c => exact hl
  have hmem : x ∈ s.slots := by rw [hh]; exact List.mem_cons_of_mem _ hx
  have hix : x ≠ (i, c) := by
    rintro rfl
    have := hs.nodup
    rw [hh] at this
    simp only [List.map_cons, List.nodup_cons] at this
    exact this.1 (List.mem_map.2 ⟨_, hx, rfl⟩)
  have hg := gone (env (s.calls ++ [c])) { s with calls := s.calls ++ [c] } (hs.lt x hmem) hd
  obtain ⟨called, h1, h2, h3⟩ := key rest _ hg.2 hg.1
  refine ⟨(i, c) :: called, ?_, ?_, ?_⟩
  · unfold Signal.contentsChanged
    rw [hh]
    unfold Signal.emit
    rw [if_pos (by rw [hh]; exact List.mem_cons_self ..), h1, Signal.foldl_calls]
    simp
  · rw [hh]; exact h2.cons_cons _
  · simp only [List.mem_cons, not_or]
    exact ⟨hix, h3⟩

/-- the first callback disconnects the last one -/
example : (Signal.contentsChanged (fun _ => [.disconnect 8]) ⟨[(0, 7), (1, 6), (2, 8)], 3, []⟩).calls = [7, 6] := by decide

/-- a callback that is disconnected and connected again by another callback waits for the next change -/
example : (Signal.run (fun l => if l = [1] then [.disconnect 2, .connect 2] else []) [.op (.connect 1), .op (.connect 2), .changed, .changed]
    Signal.init).calls = [1, 1, 2] := by decide

end Verif
