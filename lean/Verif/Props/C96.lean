import Verif.Lemmas.Visit
import Verif.Spec.Demo
/-! # C96: visitors may call the graph -/

set_option linter.unusedSectionVars false

namespace Verif
open GS
variable {F E : Type} [FrameProp F] [EdgeProp E]

/-- the visitor makes only calls that are defined, whatever state of the graph it meets -/
def C96_sound (vis : Visitor F E) : Prop :=
  ∀ seen v cs (s : GS F E), run cs init = some s → ∃ s1, run (vis seen v s).1 s = some s1

/-- The full statement: whatever calls the visitor makes, the visit comes to an end, by itself or by an exception of the visitor. -/
def C96_statement (F E : Type) [FrameProp F] [EdgeProp E] : Prop :=
  ∀ (vis : Visitor F E), C96_sound vis → ∀ cs s, run cs init = some s →
    ∃ n, (∃ res s', visitVertices vis n s = .ok res s') ∨ ∃ x s', visitVertices vis n s = .throw x s'

/-- For every visitor, whatever it does: if the visit returns, the visitor was called at most once for each vertex, in the order of their
creation, it was called for every vertex that is in the graph at the end, also for the new ones, and only for vertices that were there at
the beginning or were made during the visit. -/
theorem C96_visits {cs : List (Cmd F E)} {s : GS F E} (hs : run cs init = some s) (vis : Visitor F E) (n : Nat) {res : List VId} {s' : GS F E}
    (h : visitVertices vis n s = .ok res s') :
    res.Pairwise (fun a b => (a : Nat) < b) ∧ (∀ r ∈ s'.g.verts, r.id ∈ res) ∧ (∀ x ∈ res, (∃ r ∈ s.g.verts, r.id = x) ∨ (s.g.nextV : Nat) ≤ x) := by
  obtain ⟨hw, ha⟩ := reached_aged hs
  unfold visitVertices at h
  cases hv : s.g.verts with
  | nil =>
    simp only [hv, Res.ok.injEq] at h
    obtain ⟨rfl, rfl⟩ := h
    simp [hv]
  | cons r l =>
    simp only [hv] at h
    obtain ⟨a, b, -, c⟩ := Visiting.ok n (.start hw ha hv) h
    rw [hv] at c
    exact ⟨a, b, c⟩

theorem sorted_ext : ∀ {l l' : List Nat}, l.Pairwise (· < ·) → l'.Pairwise (· < ·) → (∀ x, x ∈ l ↔ x ∈ l') → l = l' := by
  intro l l' h h' hm
  have hp : l.Perm l' := (List.perm_ext_iff_of_nodup (h.imp (fun h => Nat.ne_of_lt h)) (h'.imp (fun h => Nat.ne_of_lt h))).2 hm
  exact hp.eq_of_pairwise (fun a b _ _ h1 h2 => absurd (Nat.lt_trans h1 h2) (Nat.lt_irrefl _)) h h'

/-- If there are the same vertices at the end as at the beginning and no others were made in between, each vertex was visited exactly once,
in the order of the list. -/
theorem C96_each_once {cs : List (Cmd F E)} {s : GS F E} (hs : run cs init = some s) (vis : Visitor F E) (n : Nat) {res : List VId} {s' : GS F E}
    (h : visitVertices vis n s = .ok res s') (hsame : s'.g.verts.map VRec.id = s.g.verts.map VRec.id)
    (hnew : ∀ x ∈ res, (x : Nat) < s.g.nextV) : res = s.g.verts.map VRec.id := by
  obtain ⟨a, b, c⟩ := C96_visits hs vis n h
  obtain ⟨hw, ha⟩ := reached_aged hs
  refine sorted_ext a ha (fun x => ⟨fun hx => ?_, fun hx => ?_⟩)
  · rcases c x hx with ⟨r, hr, rfl⟩ | hge
    · exact List.mem_map.2 ⟨r, hr, rfl⟩
    · exact absurd (Nat.lt_of_lt_of_le (hnew x hx) hge) (Nat.lt_irrefl _)
  · rw [← hsame] at hx
    obtain ⟨r, hr, rfl⟩ := List.mem_map.1 hx
    exact b r hr

/-- Missing compared to C96: visitors that remove the frame they are called for (`C96_remove_visited_fails`) and visitors that go on making new
frames (`C96_endless_fails`).  For all others the visit comes to an end, by itself or by an exception of the visitor: the vertex that is
visited stays until the visitor returns, and only vertices with numbers below `N` are made. -/
theorem C96_ends_partial {cs : List (Cmd F E)} {s : GS F E} (hs : run cs init = some s) (vis : Visitor F E) (hv : C96_sound vis) (N : Nat)
    (hN : s.g.nextV ≤ N)
    (hk : ∀ seen v cs s s1, run cs init = some s → run (vis seen v s).1 s = some s1 → (∃ r ∈ s.g.verts, r.id = v) → ∃ r ∈ s1.g.verts, r.id = v)
    (hn : ∀ seen v cs s s1, run cs init = some s → run (vis seen v s).1 s = some s1 → s.g.nextV ≤ N → s1.g.nextV ≤ N) :
    ∀ n, N < n → (∃ res s', visitVertices vis n s = .ok res s') ∨ ∃ x s', visitVertices vis n s = .throw x s' := by
  intro n hlt
  obtain ⟨hw, ha⟩ := reached_aged hs
  unfold visitVertices
  cases hl : s.g.verts with
  | nil => exact .inl ⟨_, _, rfl⟩
  | cons r l =>
    refine Visiting.ends (R := fun s => ∃ cs, run cs init = some s) (N := N) ?_ ?_ n (Visiting.start hw ha hl) ⟨cs, hs⟩ hN ?_
    · rintro s ds s1 ⟨cs, h⟩ h1
      exact ⟨_, run_append_some h h1⟩
    · rintro seen v s ⟨cs, h⟩
      obtain ⟨s1, h1⟩ := hv seen v cs s h
      exact ⟨s1, h1, fun hh => hk seen v cs s s1 h h1 hh, fun hh => hn seen v cs s s1 h h1 hh⟩
    · exact Nat.lt_of_lt_of_le hlt (Nat.le_trans (Nat.le_add_right _ _) (Nat.le_succ _))

/-- A visitor that removes the frame it is called for: undefined behaviour in every graph whose first frame has no connections, for every
such visitor and however long the visit may take. -/
theorem C96_remove_visited_fails {cs : List (Cmd F E)} {s : GS F E} (hs : run cs init = some s) {r : VRec F} {l : List (VRec F)}
    (hl : s.g.verts = r :: l) (hd : s.g.degree r.id = 0) (vis : Visitor F E)
    (hv : vis [] r.id s = ([.removeFrame (FrameProp.getId r.prop)], false)) (n : Nat) :
    ∃ m, visitVertices vis n s = .ub m := by
  obtain ⟨hw, ha⟩ := reached_aged hs
  cases n with
  | zero => exact ⟨"visitVertices: no end", by simp [visitVertices, hl, visitFrom]⟩
  | succ n =>
    have hvo : s.g.vertexOf (FrameProp.getId r.prop) = some r.id := hw.vertexOf_iff.2 ⟨r, by rw [hl]; exact .head _, rfl, rfl⟩
    have hrun : ∃ s1, run [.removeFrame (FrameProp.getId r.prop)] s = some s1 ∧ ∀ q ∈ s1.g.verts, q.id ≠ r.id := by
      refine ⟨_, by simp only [run, exec, GS.removeFrame, hvo, hd]; rfl, ?_⟩
      intro q hq
      simp only [GS.notify, G.removeVertex, List.mem_filter] at hq
      simpa using hq.2
    obtain ⟨s1, h1, h2⟩ := hrun
    refine ⟨"visitVertices: iterator of a removed vertex", ?_⟩
    simp only [visitVertices, hl, visitFrom, hv, h1, nextVertex_none.2 h2]
    rfl

/-- A visitor that makes a new frame each time: the visit does not end, in every graph that has a frame. -/
theorem C96_endless_fails {cs : List (Cmd F E)} {s : GS F E} (hs : run cs init = some s) (hne : s.g.verts ≠ []) (fresh : GS F E → FrameId)
    (hf : ∀ s, containsFrame (fresh s) s = false) (vis : Visitor F E) (hv : ∀ seen v s, vis seen v s = ([.addFrame (fresh s)], false)) (n : Nat) :
    visitVertices vis n s = .ub "visitVertices: no end" := by
  obtain ⟨hw, ha⟩ := reached_aged hs
  have key : ∀ (n : Nat) (s : GS F E) (seen : List VId) (v : VId), (∃ r ∈ s.g.verts, r.id = v) → s.g.Aged → WF s.g →
      visitFrom vis n seen v s = .ub "visitVertices: no end" := by
    intro n
    induction n with
    | zero => intro s seen v _ _ _; rfl
    | succ n ih =>
      intro s seen v hh ha hw
      have hnv : s.g.vertexOf (fresh s) = none := by simpa [containsFrame] using hf s
      obtain ⟨s1, h1, h2, h3⟩ : ∃ s1, run [.addFrame (fresh s)] s = some s1 ∧ s1.g.verts.map VRec.id = s.g.verts.map VRec.id ++ [s.g.nextV] ∧
          s1.g.nextV = s.g.nextV + 1 := by
        refine ⟨_, by simp only [run, exec, GS.addFrame, hnv, GS.discard]; rfl, ?_, ?_⟩ <;>
          simp [addVertexN, GS.notify, G.addVertex_new _ hnv]
      have hag := run_ages hw ha h1
      obtain ⟨r, hr, rfl⟩ := hh
      have hmem : ∃ q ∈ s1.g.verts, q.id = r.id := by
        have : r.id ∈ s1.g.verts.map VRec.id := by rw [h2]; exact List.mem_append_left _ (List.mem_map.2 ⟨r, hr, rfl⟩)
        obtain ⟨q, hq, e⟩ := List.mem_map.1 this
        exact ⟨q, hq, e⟩
      unfold visitFrom
      simp only [hv, h1]
      cases hn : nextVertex r.id s1.g.verts with
      | none => obtain ⟨q, hq, e⟩ := hmem; exact absurd e (nextVertex_none.1 hn q hq)
      | some o =>
        have hn' := nextVertex_some hag.aged hn
        cases o with
        | none =>
          have : s.g.nextV ∈ s1.g.verts.map VRec.id := by rw [h2]; simp
          obtain ⟨q, hq, e⟩ := List.mem_map.1 this
          have h4 := hn'.2.1 rfl q hq
          rw [e] at h4
          exact absurd (Nat.lt_of_lt_of_le (hw.vlt r hr) h4) (Nat.lt_irrefl _)
        | some w =>
          obtain ⟨-, h5, -⟩ := hn'.2.2 w rfl
          exact ih s1 _ w h5 hag.aged hag.wf
  unfold visitVertices
  cases hl : s.g.verts with
  | nil => exact absurd hl hne
  | cons r l => exact key n s [] r.id ⟨r, by rw [hl]; exact .head _, rfl⟩ ha hw

/-- the visitor that removes each frame it is called for -/
def C96_remover : Visitor F E := fun _ v s =>
  match s.g.findV v with
  | none => ([], false)
  | some r => ([.removeFrame (FrameProp.getId r.prop)], false)

theorem C96_remover_sound : C96_sound (C96_remover (F := F) (E := E)) := by
  intro seen v cs s _
  unfold C96_remover
  cases hr : s.g.findV v with
  | none => exact ⟨s, rfl⟩
  | some r =>
    simp only [run, exec, GS.removeFrame]
    cases hv : s.g.vertexOf (FrameProp.getId r.prop) with
    | none => exact ⟨s, rfl⟩
    | some u =>
      by_cases hd : s.g.degree u > 0
      · simp only [hd, if_true]; exact ⟨_, rfl⟩
      · simp only [hd, if_false]; exact ⟨_, rfl⟩

/-- The full statement fails. -/
theorem C96_statement_fails : ¬ C96_statement DemoFrame Int := by
  intro h
  obtain ⟨s, h1, h2, h3⟩ : ∃ s : GS DemoFrame Int, run [.addFrame "a"] init = some s ∧ s.g.verts = [⟨0, 0, ⟨"a", 0⟩⟩] ∧ s.g.degree 0 = 0 := ⟨_, rfl, rfl, rfl⟩
  obtain ⟨n, hn⟩ := h C96_remover C96_remover_sound _ s h1
  obtain ⟨m, hm⟩ := C96_remove_visited_fails h1 h2 h3 C96_remover (by
    unfold C96_remover
    have : s.g.findV (0 : VId) = some ⟨0, 0, ⟨"a", 0⟩⟩ := by simp [G.findV, h2]
    rw [this]) n
  rcases hn with ⟨_, _, hn⟩ | ⟨_, _, hn⟩ <;> rw [hm] at hn <;> cases hn

/-- a name that is longer than all names in the graph -/
def C96_longName (s : GS F E) : FrameId := s.g.labels.foldl (fun a p => a ++ p.1) "x"

theorem C96_longName_new (s : GS F E) : containsFrame (C96_longName s) s = false := by
  have hlen : ∀ (l : AMap FrameId VId) (a : String), a.length ≤ (l.foldl (fun a p => a ++ p.1) a).length := by
    intro l
    induction l with
    | nil => intro a; exact Nat.le_refl _
    | cons p l ih =>
      intro a
      refine Nat.le_trans ?_ (ih (a ++ p.1))
      rw [String.length_append]; omega
  have hmem : ∀ (l : AMap FrameId VId) (a : String), 0 < a.length → ∀ p ∈ l, p.1.length < (l.foldl (fun a p => a ++ p.1) a).length := by
    intro l
    induction l with
    | nil => intro a _ p hp; cases hp
    | cons q l ih =>
      intro a ha p hp
      rcases List.mem_cons.1 hp with rfl | hp
      · have := hlen l (a ++ p.1)
        rw [String.length_append] at this
        simp only [List.foldl_cons]
        omega
      · exact ih (a ++ q.1) (by rw [String.length_append]; omega) p hp
  simp only [containsFrame]
  cases hv : s.g.vertexOf (C96_longName s) with
  | none => rfl
  | some v =>
    have h1 := hmem s.g.labels "x" (by decide) _ (AMap.mem_of_get hv)
    exact absurd h1 (Nat.lt_irrefl _)

/-- three frames; for "a" the visitor makes "d" and removes "b", for "d" it connects "a" and "d" -/
def C96_busy : Visitor DemoFrame Int := fun seen v s =>
  match s.g.findV v, seen with
  | some ⟨_, _, ⟨"a", _⟩⟩, [] => ([.addFrame "d", .removeFrame "b"], false)
  | some ⟨_, _, ⟨"d", _⟩⟩, _ => ([.addEdge "a" "d" 1], false)
  | _, _ => ([], false)

example : ((run [.addFrame "a", .addFrame "b", .addFrame "c"] init).map fun s : GS DemoFrame Int =>
      ((visitVertices C96_busy 9 s).val?, (visitVertices C96_busy 9 s).st?.map fun s => (s.g.verts.map (fun r => r.prop.id), s.g.edges.length))) =
    some (some [0, 2, 3], some (["a", "c", "d"], 2)) := by decide +kernel

/-- a visitor that throws for the second frame: the calls before stay, the third frame is not visited; an empty graph has nothing to visit -/
example : ((run [.addFrame "a", .addFrame "b", .addFrame "c"] init).map fun s : GS DemoFrame Int =>
      ((visitVertices (fun seen _ _ => if seen = [] then ([.addFrame "d"], false) else ([.addFrame "e"], true)) 9 s).exn?.isSome,
       (visitVertices (fun seen _ _ => if seen = [] then ([.addFrame "d"], false) else ([.addFrame "e"], true)) 9 s).st?.map fun s => s.g.verts.map (fun r => r.prop.id))) =
    some (true, some ["a", "b", "c", "d", "e"]) ∧
    (visitVertices (F := DemoFrame) (E := Int) (fun _ _ _ => ([], false)) 1 init).val? = some [] := by decide +kernel

/-- the visitor removes the frame that it is called for -/
example : ((run [.addFrame "a", .addFrame "b"] init).map fun s : GS DemoFrame Int => (visitVertices C96_remover 9 s).st?.isNone) = some true := by
  decide +kernel

/-- it goes on making frames -/
example (n : Nat) : ∃ s : GS DemoFrame Int, run [.addFrame "a"] init = some s ∧
    visitVertices (fun _ _ s => ([.addFrame (C96_longName s)], false)) n s = .ub "visitVertices: no end" :=
  ⟨_, rfl, C96_endless_fails (cs := [.addFrame "a"]) rfl (by decide) C96_longName C96_longName_new _ (fun _ _ _ => rfl) n⟩

/-- For every visitor of items, whatever it does: if the visit returns, the visitor was called once for each item that the frame had at the
beginning, in the order of the lists, and the frame has the same items at the end. -/
theorem C96_items {cs : List (EG.Cmd E)} {heap : ItemId → ItemObj} {s : EG E} (hs : EG.run cs (EG.init heap) = some s) (vis : EG.ItemVisitor E)
    (f : FrameId) {res : List ItemId} {s' : EG E} (h : EG.visitItemsWith vis f s = .ok res s') :
    EG.visitItems f s = .ok res s ∧ EG.visitItems f s' = .ok res s' := by
  have h0 := (EG.run_chain (P := fun _ => True) (fun c _ => by cases c <;> simp [EG.Cmd.within]) hs).ages WF.empty (by simp [G.Aged, EG.init, GS.init, G.empty])
  unfold EG.visitItemsWith at h
  cases hv : s.gs.g.vertexOf f with
  | none => simp [hv] at h
  | some v =>
    obtain ⟨r, hr, hid⟩ := h0.wf.live_of_vertexOf hv
    simp only [hv, hr] at h
    obtain ⟨a, b, c, -, -⟩ := EG.visitRest_ok _ h0.wf h0.aged h
    have hb : EG.itemsAt v s = some r.prop.items := by simp [EG.itemsAt, hr]
    rw [hb] at b
    simp only [EG.itemsAt] at b
    obtain ⟨r', hr', hi'⟩ := Option.map_eq_some_iff.1 b
    have hname := c.name r' (G.findV_some hr').1 r (G.findV_some hr).1 ((G.findV_some hr).2.trans (G.findV_some hr').2.symm)
    have hv' : s'.gs.g.vertexOf f = some v := c.wf.vertexOf_iff.2 ⟨r', (G.findV_some hr').1, (G.findV_some hr').2, hname.symm.trans hid⟩
    rw [List.nil_append] at a
    subst a
    refine ⟨by simp only [EG.visitItems, EG.readFrame, hv, hr], ?_⟩
    simp only [EG.visitItems, EG.readFrame, hv', hr']
    simp only [EFrame.visit, hi']

/-- A visitor that removes the item it is called for, or adds one to the frame: undefined behaviour in every state. -/
theorem C96_items_changed_fails {s s1 : EG E} {f : FrameId} {i : ItemId} {l : List ItemId} (hl : EG.visitItems f s = .ok (i :: l) s)
    (vis : EG.ItemVisitor E) (c : EG.Cmd E) (hv : vis [] i s = ([c], false))
    (hc : (c = .removeItem i ∧ (s.heap i).frame = f ∧ EG.removeItem i s = .ok () s1) ∨ ∃ j, c = .addItemToFrame f j) :
    ∃ m, EG.visitItemsWith vis f s = .ub m := by
  unfold EG.visitItemsWith
  simp only [EG.visitItems, EG.readFrame] at hl
  cases hvo : s.gs.g.vertexOf f with
  | none => simp [hvo] at hl
  | some v =>
    simp only [hvo] at hl
    cases hr : s.gs.g.findV v with
    | none => simp [hr] at hl
    | some r =>
      simp only [hr, Res.ok.injEq, and_true] at hl
      simp only [hr, hl]
      obtain ⟨s2, e, g, h1, h2, h3⟩ : ∃ (s2 : EG E) (e : Event) (g : G EFrame E), EG.run [c] s = some s2 ∧
          s2.gs.trace = s.gs.trace ++ [(e, g)] ∧ EG.touches f e = true := by
        rcases hc with ⟨rfl, hf, hrm⟩ | ⟨j, rfl⟩
        · refine ⟨s1, .itemRemoved f i, s1.gs.g, by simp only [EG.run, EG.exec, hrm], ?_, by simp [EG.touches]⟩
          unfold EG.removeItem at hrm
          simp only [hf, hvo, hr] at hrm
          cases ht : r.prop.items.get (s.heap i).type with
          | none => simp [ht] at hrm
          | some l' =>
            simp only [ht] at hrm
            split at hrm
            · simp only [Res.ok.injEq, true_and] at hrm
              subst hrm
              split <;> rfl
            · cases hrm
        · exact ⟨EG.notify (.itemAdded f j) (EG.setItemFrame j f (EG.modFrame v (EFrame.push (s.heap j).type j) s)), .itemAdded f j, _, by simp only [EG.run, EG.exec, EG.addItemToFrame, hvo], rfl, by simp [EG.touches]⟩
      have ht : EG.touched f s s2 = true := by simp [EG.touched, h2, h3]
      refine ⟨"visitItems: invalidated iterator", ?_⟩
      simp only [EG.visitRest, hv, h1, ht, true_or, if_true]
      rfl

/-- items 0 to 4 have type 7, the others type 8 -/
def C96_heap (i : ItemId) : ItemObj := ⟨if i < 5 then 7 else 8, ""⟩

/-- frames "a" with items 0, 5, 1 and "b" with item 2 -/
def C96_shelf : Option (EG Int) :=
  EG.run [.graph (.addFrame "a"), .graph (.addFrame "b"), .addItemToFrame "a" 0, .addItemToFrame "a" 5, .addItemToFrame "a" 1, .addItemToFrame "b" 2] (EG.init C96_heap)

/-- the visitor removes an item of the other frame and adds the visited items there -/
example : C96_shelf.map (fun s => (EG.visitItemsWith (fun seen i _ => (if seen = [] then [.removeItem 2, .addItemToFrame "b" i] else [.addItemToFrame "b" i], false)) "a" s).val?) =
      some (some [0, 1, 5]) ∧
    C96_shelf.map (fun s => (EG.visitItemsWith (fun seen i _ => (if seen = [] then [.removeItem 2, .addItemToFrame "b" i] else [.addItemToFrame "b" i], false)) "a" s).st?.map
      fun s => ((EG.visitItems "a" s).val?, (EG.visitItems "b" s).val?)) = some (some (some [0, 1, 5], some [0, 1, 5])) := by
  refine ⟨?_, ?_⟩ <;> decide +kernel

/-- it throws for the second item; an unknown frame; it removes the item, adds another one, or removes the frame -/
example : C96_shelf.map (fun s => (EG.visitItemsWith (fun seen i _ => ([.addItemToFrame "b" i], seen ≠ [])) "a" s).st?.map
      fun s => (EG.visitItems "b" s).val?) = some (some (some [2, 0, 1])) ∧
    C96_shelf.map (fun s => (EG.visitItemsWith (fun _ _ _ => ([], false)) "c" s).exn?) = some (some (.unknownFrame "c")) ∧
    C96_shelf.map (fun s => (EG.visitItemsWith (fun _ i _ => ([.removeItem i], false)) "a" s).st?.isNone) = some true ∧
    C96_shelf.map (fun s => (EG.visitItemsWith (fun _ _ _ => ([.addItemToFrame "a" 9], false)) "a" s).st?.isNone) = some true ∧
    C96_shelf.map (fun s => (EG.visitItemsWith (fun _ _ _ => ([.graph (.removeFrame "a")], false)) "a" s).st?.isNone) = some true := by
  refine ⟨?_, ?_, ?_, ?_, ?_⟩ <;> decide +kernel

end Verif
