import Verif.Lemmas.ItemPublish
import Verif.Lemmas.ItemChain
import Verif.Spec.Demo
/-! # C09: publishing the current state of an `EnvireGraph`, items included -/

namespace Verif
open EG
variable {E : Type} [EdgeProp E]

/-- After any history without self edges `publishCurrentState` sends the events of the graph part (`C09_publish_current_state`)
and then only item events.  A strict observer that replays all of them knows exactly the frames and connections, and has for
every frame the very items that `visitItems` visits, in the same order; it has nothing for other names. -/
theorem C09_publish_items (heap : ItemId → ItemObj) (cs : List (EG.Cmd E)) (hcs : ∀ c ∈ cs, c.noSelf) {s : EG E}
    (hs : EG.run cs (EG.init heap) = some s) :
    ∃ gevs ievs, EG.publishCurrentState s = some (gevs ++ ievs) ∧ GS.publishCurrentState s.gs = some gevs ∧
      (∀ e ∈ gevs, (∃ f, e = .frameAdded f) ∨ ∃ a b i, e = .edgeAdded a b i) ∧
      (∀ e ∈ ievs, ∃ f i, e = .itemAdded f i) ∧
      (∃ m, Mirror.empty.replay (gevs ++ ievs) = some m ∧ (∀ f, f ∈ m.frames ↔ GS.containsFrame f s.gs = true) ∧
        ∀ a b, (a, b) ∈ m.conns ↔ GS.containsEdge a b s.gs = .ok true s.gs) ∧
      (∀ f l, visitItems f s = .ok l s → (Shelf.empty.replay (gevs ++ ievs)) f = l) ∧
      (∀ f, GS.containsFrame f s.gs = false → (Shelf.empty.replay (gevs ++ ievs)) f = []) := by
  have hw := EG.run_wf hs
  have hp := EG.run_paired hcs hs
  obtain ⟨pub, h1, -, -⟩ := GS.publishCurrentState_eq hw hp
  obtain ⟨m, r1, r2⟩ := GS.publish_replay hw hp h1
  have hg : ∀ e ∈ ((GS.names s.gs.g).map Event.frameAdded ++
      pub.map (fun e => Event.edgeAdded (pairOf s.gs.g e).1 (pairOf s.gs.g e).2 e.id)),
      (∃ f, e = .frameAdded f) ∨ ∃ a b i, e = .edgeAdded a b i := by
    intro e he
    rcases List.mem_append.1 he with he | he
    · obtain ⟨x, -, rfl⟩ := List.mem_map.1 he; exact Or.inl ⟨_, rfl⟩
    · obtain ⟨x, -, rfl⟩ := List.mem_map.1 he; exact Or.inr ⟨_, _, _, rfl⟩
  have hi : ∀ e ∈ s.gs.g.verts.flatMap (fun r => r.prop.visit.map (fun i => Event.itemAdded r.prop.id i)),
      ∃ f i, e = Event.itemAdded f i := by
    intro e he
    obtain ⟨r, -, he⟩ := List.mem_flatMap.1 he
    obtain ⟨i, -, rfl⟩ := List.mem_map.1 he
    exact ⟨_, _, rfl⟩
  have hsh : ∀ (l : List Event) (M : Shelf), (∀ e ∈ l, (∃ f, e = .frameAdded f) ∨ ∃ a b i, e = .edgeAdded a b i) →
      M.replay l = M := by
    intro l
    induction l with
    | nil => intros; rfl
    | cons e l ih =>
      intro M h
      have h' := ih M (fun x hx => h x (List.mem_cons_of_mem _ hx))
      rcases h e (List.mem_cons_self ..) with ⟨f, rfl⟩ | ⟨a, b, i, rfl⟩ <;> exact h'
  obtain ⟨k1, k2⟩ := Shelf.replay_frames s.gs.g.verts (GS.names_nodup hw) Shelf.empty
  refine ⟨_, _, by rw [EG.publishCurrentState, h1], h1, hg, hi, ⟨m, ?_, fun f => r2.frames f, fun a b => ?_⟩, ?_, ?_⟩
  · rw [Mirror.replay_append, r1]
    exact Mirror.replay_inert (fun e he => Or.inl (hi e he)) m
  · rw [r2.conns, containsEdge_iff]
  · intro f l hl
    obtain ⟨r, hr, rfl, rfl⟩ := (EG.visitItems_iff hw).1 hl
    rw [Shelf.replay_append, hsh _ _ hg, k1 r hr]
    rfl
  · intro f hf
    rw [Shelf.replay_append, hsh _ _ hg, k2 f]
    · rfl
    · rintro r hr rfl
      have : s.gs.g.vertexOf r.prop.id = some r.id := hw.vertexOf_iff.2 ⟨r, hr, rfl, rfl⟩
      simp [GS.containsFrame, this] at hf

/-- an item that was removed is not published -/
example : (EG.run [.graph (.addFrame "a"), .addItemToFrame "a" 6, .addItemToFrame "a" 1, .removeItem 6]
      (EG.init (E := Int) (fun i => ⟨i, ""⟩))).map (fun s => EG.publishCurrentState s) =
    some (some [.frameAdded "a", .itemAdded "a" 1]) := by decide +kernel

/-- `unpublishCurrentState` sends item events first.  An observer that had the items of every frame (in any order) has none left
in any frame of the graph when the first event of the graph part arrives, and an observer that knew exactly the frames and
connections knows nothing after all of them. -/
theorem C09_unpublish_items (heap : ItemId → ItemObj) (cs : List (EG.Cmd E)) (hcs : ∀ c ∈ cs, c.noSelf) {s : EG E}
    (hs : EG.run cs (EG.init heap) = some s) (m : Mirror) (hf : ∀ f, f ∈ m.frames ↔ GS.containsFrame f s.gs = true)
    (hc : ∀ a b, (a, b) ∈ m.conns ↔ GS.containsEdge a b s.gs = .ok true s.gs) (M : Shelf)
    (hM : ∀ f l, visitItems f s = .ok l s → (M f).Perm l) :
    ∃ ievs gevs, EG.unpublishCurrentState s = some (ievs ++ gevs) ∧ GS.unpublishCurrentState s.gs = some gevs ∧
      (∀ e ∈ ievs, ∃ f i, e = .itemRemoved f i) ∧
      (∀ e ∈ gevs, (∃ f, e = .frameRemoved f) ∨ ∃ a b, e = .edgeRemoved a b) ∧
      m.replay (ievs ++ gevs) = some Mirror.empty ∧
      (∀ f, GS.containsFrame f s.gs = true → (M.replay ievs) f = []) ∧
      (∀ f i, Event.itemRemoved f i ∈ ievs → GS.containsFrame f s.gs = true) := by
  have hw := EG.run_wf hs
  have hp := EG.run_paired hcs hs
  obtain ⟨pub, h1, -, -⟩ := GS.unpublishCurrentState_eq hw hp
  have hi : ∀ e ∈ s.gs.g.verts.flatMap (fun r => r.prop.visit.map (fun i => Event.itemRemoved r.prop.id i)),
      ∃ f i, e = Event.itemRemoved f i := by
    intro e he
    obtain ⟨r, -, he⟩ := List.mem_flatMap.1 he
    obtain ⟨i, -, rfl⟩ := List.mem_map.1 he
    exact ⟨_, _, rfl⟩
  obtain ⟨k1, -⟩ := Shelf.replay_rmFrames s.gs.g.verts (GS.names_nodup hw) M
  refine ⟨_, _, by rw [EG.unpublishCurrentState, h1], h1, hi, ?_, ?_, ?_, ?_⟩
  · intro e he
    rcases List.mem_append.1 he with he | he
    · obtain ⟨x, -, rfl⟩ := List.mem_map.1 he; exact Or.inr ⟨_, _, rfl⟩
    · obtain ⟨x, -, rfl⟩ := List.mem_map.1 he; exact Or.inl ⟨_, rfl⟩
  · rw [Mirror.replay_append, Mirror.replay_inert (fun e he => Or.inr (hi e he)) m]
    exact GS.unpublish_replay hw hp ⟨fun f => hf f, fun a b => by rw [hc, containsEdge_iff]⟩ h1
  · intro f h
    obtain ⟨v, hv⟩ := Option.isSome_iff_exists.1 h
    obtain ⟨r, hr, -, rfl⟩ := hw.vertexOf_iff.1 hv
    exact k1 r hr (hM _ _ ((EG.visitItems_iff hw).2 ⟨r, hr, rfl, rfl⟩)).symm
  · intro f i he
    obtain ⟨r, hr, he⟩ := List.mem_flatMap.1 he
    obtain ⟨j, -, hj⟩ := List.mem_map.1 he
    obtain ⟨rfl, -⟩ := Event.itemRemoved.inj hj
    have : s.gs.g.vertexOf r.prop.id = some r.id := hw.vertexOf_iff.2 ⟨r, hr, rfl, rfl⟩
    simp [GS.containsFrame, this]

/-- two frames with items of two types, one item of them twice, an empty frame and a connection -/
example : (EG.run [.graph (.addEdge "a" "b" (1 : Int)), .graph (.addFrame "c"), .addItemToFrame "b" 6, .addItemToFrame "b" 1,
      .addItemToFrame "b" 6, .addItemToFrame "a" 2] (EG.init (fun i => ⟨if i < 5 then 7 else 8, ""⟩))).map
      (fun s => (EG.publishCurrentState s, EG.unpublishCurrentState s)) =
    some (some [.frameAdded "a", .frameAdded "b", .frameAdded "c", .edgeAdded "a" "b" 0,
        .itemAdded "a" 2, .itemAdded "b" 6, .itemAdded "b" 6, .itemAdded "b" 1],
      some [.itemRemoved "a" 2, .itemRemoved "b" 6, .itemRemoved "b" 6, .itemRemoved "b" 1,
        .edgeRemoved "a" "b", .frameRemoved "a", .frameRemoved "b", .frameRemoved "c"]) := by decide +kernel

end Verif
