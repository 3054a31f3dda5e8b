import Verif.Lemmas.ItemReenter
import Verif.Spec.Demo
set_option linter.unusedSectionVars false
set_option synthInstance.maxSize 1024
/-!
# C93: handlers of item events may call the graph

Full statement: whatever the subscribers do when an item is added or removed (call the graph again, throw), a call that ends leaves the
graph and the items as some sequence of ordinary calls would have done, with the same events.

It holds if the handlers do nothing when an item is removed, and for all handlers if only calls that publish last are used.  It fails for
`clearFrame` (so also `removeFrame` and `clear`) and the removal by iterator, which publish while the item list is being changed: the
last item of a type is announced while its empty list is still there.
-/

namespace Verif
namespace EG
variable {E : Type} [EdgeProp E]

/-- the call brings in no frame with an empty or doubled item list -/
def C93_ordinary : Cmd E → Prop
  | .graph (.emplaceFrame _ p) => (p.items.map Prod.fst).Nodup ∧ ∀ x ∈ p.items, x.2 ≠ []
  | _ => True

/-- the calls that publish their event, if they have one about items, at the very end -/
def C93_late : Cmd E → Prop
  | .graph (.removeFrame _) => False
  | .removeItemAt _ _ => False
  | .clearFrame _ => False
  | .clear => False
  | c => C93_ordinary c

/-- the full statement -/
def C93_statement (E : Type) [EdgeProp E] : Prop :=
  ∀ (hd : IHandler E) (n : Nat) (hist : List (Cmd E)) (heap : ItemId → ItemObj) (s : EG E),
    (∀ c ∈ hist, C93_ordinary c) → run hist (init heap) = some s → (∀ ev k s c b, hd ev k s = .call c b → C93_ordinary c) →
    ∀ (c : Cmd E) (s' : EG E), C93_ordinary c → (hexec hd n c s).st? = some s' → ∃ cs, (∀ c ∈ cs, C93_ordinary c) ∧ run cs s = some s'

/-- Subscribers that only listen: the call is the one of the other properties. -/
theorem C93_listeners (hd : IHandler E) (hp : ∀ ev s, hd ev 0 s = .done) (n : Nat) (c : Cmd E) (s : EG E) :
    hexec hd (n + 1) c s = exec c s := by
  refine execH_passive (nt := fun ev s => handleLoop hd (hexec hd n) ev n 0 (notify ev s)) ?_ c s
  intro ev s
  rw [handleLoop.eq_def]
  simp only [hp]

/-- Handlers that do what they like, except that they do nothing when an item was removed: every call that ends is a sequence of
ordinary calls, from every state. -/
theorem C93_in_order_partial (hd : IHandler E) (n : Nat) (s : EG E) (hq : ∀ f i s, hd (.itemRemoved f i) 0 s = .done)
    (hc : ∀ ev k s c b, hd ev k s = .call c b → C93_ordinary c) (c : Cmd E) (s' : EG E) (ho : C93_ordinary c)
    (h : (hexec hd n c s).st? = some s') : ∃ cs, (∀ c ∈ cs, C93_ordinary c) ∧ run cs s = some s' :=
  hexec_seq (P := C93_ordinary) hc (.inl hq) n c s s' ho h

/-- Any handlers, as long as nobody uses `clearFrame`, `removeFrame`, `clear` or the removal by iterator. -/
theorem C93_late_partial (hd : IHandler E) (n : Nat) (s : EG E)
    (hc : ∀ ev k s c b, hd ev k s = .call c b → C93_late c) (c : Cmd E) (s' : EG E) (ho : C93_late c)
    (h : (hexec hd n c s).st? = some s') : ∃ cs, (∀ c ∈ cs, C93_late c) ∧ run cs s = some s' := by
  refine hexec_seq (P := C93_late) hc (.inr ?_) n c s s' ho h
  intro c h
  cases c with
  | graph c => cases c <;> first | exact trivial | exact h
  | removeItemAt f it => exact h
  | clearFrame f => exact h
  | clear => exact h
  | addItem i => trivial
  | addItemToFrame f i => trivial
  | removeItem i => trivial
  | setItemFrame i f => trivial

/-- demo: items 1 and 2 of type 7, item 3 of type 8; the items know frame "a" -/
def demoHeap : ItemId → ItemObj := fun i => ⟨if i = 3 then 8 else 7, "a"⟩

/-- demo: when item 1 comes, item 2 follows; when item 1 goes, item 2 goes as well and the frame "log" gets item 3 -/
def demoTwins : IHandler Int := fun ev k _ =>
  match ev, k with
  | .itemAdded "a" 1, 0 => .call (.addItemToFrame "a" 2) false
  | .itemRemoved "a" 1, 0 => .call (.removeItem 2) true
  | .itemRemoved "a" 1, 1 => .call (.graph (.addFrame "log")) true
  | .itemRemoved "a" 1, 2 => .call (.addItemToFrame "log" 3) true
  | _, _ => .done

/-- the names, items and events of a state -/
def demoLook (s : EG Int) : List Event × List (FrameId × AMap TypeIdx (List ItemId)) :=
  (s.gs.trace.map Prod.fst, s.gs.g.verts.map (fun r => (r.prop.id, r.prop.items)))

example : ((hrun demoTwins 5 [.graph (.addFrame "a"), .addItem 1] (init demoHeap)).map demoLook) =
    some ([.frameAdded "a", .itemAdded "a" 1, .itemAdded "a" 2], [("a", [(7, [1, 2])])]) := by decide +kernel

/-- removal by pointer publishes last: the handler removes the other item -/
example : ((hrun demoTwins 5 [.graph (.addFrame "a"), .addItem 1, .removeItem 1] (init demoHeap)).map demoLook) =
    some ([.frameAdded "a", .itemAdded "a" 1, .itemAdded "a" 2, .itemRemoved "a" 1, .itemRemoved "a" 2, .frameAdded "log",
      .itemAdded "log" 3], [("a", []), ("log", [(8, [3])])]) := by decide +kernel

/-- but `clearFrame` is still using the list -/
example : hrun demoTwins 5 [.graph (.addFrame "a"), .addItem 1, .clearFrame "a"] (init demoHeap) = none := by decide +kernel

/-- the structure of the graph: every edge has its inverse, no two edges with the same ends, no edge from a frame to itself, and the
names of the frames are different -/
def C93_structure_ok (g : G EFrame E) : Prop :=
  (∀ e ∈ g.edges, e.src ≠ e.tgt ∧ ∃ e' ∈ g.edges, e'.src = e.tgt ∧ e'.tgt = e.src ∧
    (e'.prop = EdgeProp.inverse e.prop ∨ e.prop = EdgeProp.inverse e'.prop)) ∧
  (∀ e ∈ g.edges, ∀ e' ∈ g.edges, e.src = e'.src → e.tgt = e'.tgt → e = e') ∧
  ∀ r ∈ g.verts, ∀ r' ∈ g.verts, r.prop.id = r'.prop.id → r = r'

/-- Whatever handlers of item events do (also when they throw in the middle of `clearFrame`), frames and edges stay in order, as long as
nobody connects a frame with itself. -/
theorem C93_structure (hd : IHandler E) (n : Nat) (calls : List (Cmd E)) (heap : ItemId → ItemObj) (s : EG E)
    (hc : ∀ c ∈ calls, ∀ f p, c ≠ .graph (.addEdge f f p)) (hh : ∀ ev k s b f p, hd ev k s ≠ .call (.graph (.addEdge f f p)) b)
    (h : hrun hd n calls (init heap) = some s) : C93_structure_ok s.gs.g := by
  have ns : ∀ c : Cmd E, (∀ f p, c ≠ .graph (.addEdge f f p)) → c.noSelf := by
    intro c hc
    cases c with
    | graph c =>
      cases c with
      | addEdge o t p => intro ho; subst ho; exact hc o p rfl
      | _ => trivial
    | _ => trivial
  have ch : Chain GS.Cmd.noSelf (init heap) s :=
    hrun_chain (fun ev k s c b e => (ns c (fun f p hcc => hh ev k s b f p (hcc ▸ e))).within) n
      (fun c hcc => (ns c (hc c hcc)).within) h
  have hw := Chain.wf ch WF.empty
  have hp := Chain.paired ch WF.empty Paired.empty
  refine ⟨fun e he => ⟨hp.noself e he, ?_⟩, hp.uniq, ?_⟩
  · obtain ⟨e', h1, h2, h3, h4⟩ := hp.inv e he
    exact ⟨e', h1, h2, h3, h4⟩
  · intro r hr r' hr' hid
    have h1 := hw.vertexOf_iff (f := r.prop.id) |>.2 ⟨r, hr, rfl, rfl⟩
    have h2 := hw.vertexOf_iff (f := r.prop.id) |>.2 ⟨r', hr', rfl, hid.symm⟩
    rw [h1] at h2
    exact map_inj_of_nodup hw.vnodup hr hr' (Option.some.inj h2)

/-- demo: connects frames while items are removed, then throws -/
def demoBuilder : IHandler Int := fun ev k _ =>
  match ev, k with
  | .itemRemoved "a" 1, 0 => .call (.graph (.addEdge "a" "b" 5)) false
  | .itemRemoved "a" 1, 1 => .call (.graph (.addEdge "b" "a" 6)) true
  | .itemRemoved "a" 1, _ => .fail
  | _, _ => .done

example : ((hrun demoBuilder 5 [.graph (.addFrame "a"), .addItem 1, .addItem 2, .clearFrame "a"] (init demoHeap)).map (fun s =>
      (demoLook s, s.gs.g.edges.map (fun e => (e.src, e.tgt, e.prop))))) =
    some (([.frameAdded "a", .itemAdded "a" 1, .itemAdded "a" 2, .itemRemoved "a" 1, .frameAdded "b", .edgeAdded "a" "b" 0],
      [("a", [(7, [2])]), ("b", [])]), [(0, 1, 5), (1, 0, -5)]) := by decide +kernel

/-- the events about frame `f` and its items that were published on the way from `s` to `s'` -/
def C93_news (f : FrameId) (s s' : EG E) : List Event :=
  ((s'.gs.trace.drop s.gs.trace.length).map Prod.fst).filter (fun e => match e with
    | .itemAdded f' _ => f' = f
    | .itemRemoved f' _ => f' = f
    | .frameRemoved f' => f' = f
    | _ => false)

theorem news_eq (f : FrameId) (s s' : EG E) : C93_news f s s' = news f s s' := by
  simp only [C93_news, news]
  rfl

theorem clearFrameH_result {hd : IHandler E} {n : Nat} {s s' : EG E} (hw : WF s.gs.g) {f : FrameId} {v : VId} {r : VRec EFrame}
    (hv : s.gs.g.vertexOf f = some v) (hr : s.gs.g.findV v = some r) (h : clearFrameH (notifyH hd n) f s = .ok () s') :
    s'.gs.g.vertexOf f = some v ∧ (∃ r', s'.gs.g.findV v = some r' ∧ r'.prop.items = []) ∧
      news f s s' = r.prop.visit.map (fun i => .itemRemoved f i) ∧ ∃ l, s'.gs.trace = s.gs.trace ++ l := by
  have hl := notifyH_chain hd n
  have ch := clearFrameH_chain hl (s' := s') (by rw [h]; rfl)
  simp only [clearFrameH, hv, hr] at h
  obtain ⟨h1, h2⟩ := clearTypesH_ok hl f v r.prop.items hw h
  have hi : itemsAt v s = some r.prop.items := by simp [itemsAt, hr]
  rw [hi, Option.map_some] at h1
  have hnil : r.prop.items.filter (fun p => p.1 ∉ AMap.keys r.prop.items) = [] := by
    rw [List.filter_eq_nil_iff]
    intro p hp
    have : p.1 ∈ AMap.keys r.prop.items := List.mem_map.2 ⟨p, hp, rfl⟩
    simp [this]
  rw [hnil] at h1
  simp only [itemsAt] at h1
  obtain ⟨r', hr', h3⟩ := Option.map_eq_some_iff.1 h1
  exact ⟨(Chain.named ch hw (hw.named hv)).vertexOf (Chain.wf ch hw) hr', ⟨r', hr', h3⟩, h2, Chain.trace ch hw⟩

/-- `clearFrame` with any handlers, after any history: if it returns, the frame is the same one and has no items, and the events about
it are the removals of the items it had, each once and in order. -/
theorem C93_clear_frame (hd : IHandler E) (n : Nat) (calls : List (Cmd E)) (heap : ItemId → ItemObj) (s : EG E)
    (hs : hrun hd n calls (init heap) = some s) (f : FrameId) (v : VId) (r : VRec EFrame) (hv : s.gs.g.vertexOf f = some v)
    (hr : s.gs.g.findV v = some r) (s' : EG E) (h : hexec hd n (.clearFrame f) s = .ok () s') :
    s'.gs.g.vertexOf f = some v ∧ (∃ r', s'.gs.g.findV v = some r' ∧ r'.prop.items = []) ∧
      C93_news f s s' = r.prop.visit.map (fun i => .itemRemoved f i) := by
  have hw := Chain.wf (hrun_chain (P := fun _ => True) (fun _ _ _ c _ _ => within_true c) n (fun c _ => within_true c) hs) WF.empty
  cases n with
  | zero => cases h
  | succ n =>
    obtain ⟨h1, h2, h3, -⟩ := clearFrameH_result (hd := hd) (n := n) hw hv hr h
    exact ⟨h1, h2, by rw [news_eq]; exact h3⟩

/-- `removeFrame` with any handlers: if it returns, the frame is gone, and the events about it are the removals of its items, each once
and in order, and then its own removal. -/
theorem C93_remove_frame (hd : IHandler E) (n : Nat) (calls : List (Cmd E)) (heap : ItemId → ItemObj) (s : EG E)
    (hs : hrun hd n calls (init heap) = some s) (f : FrameId) (v : VId) (r : VRec EFrame) (hv : s.gs.g.vertexOf f = some v)
    (hr : s.gs.g.findV v = some r) (s' : EG E) (h : hexec hd n (.graph (.removeFrame f)) s = .ok () s') :
    s'.gs.g.vertexOf f = none ∧ C93_news f s s' = r.prop.visit.map (fun i => .itemRemoved f i) ++ [.frameRemoved f] := by
  have hw := Chain.wf (hrun_chain (P := fun _ => True) (fun _ _ _ c _ _ => within_true c) n (fun c _ => within_true c) hs) WF.empty
  cases n with
  | zero => cases h
  | succ n =>
    change removeFrameH (notifyH hd n) f s = _ at h
    simp only [removeFrameH] at h
    cases hx : clearFrameH (notifyH hd n) f s with
    | ub x => rw [hx] at h; cases h
    | throw x s1 => rw [hx] at h; cases h
    | ok a s1 =>
      rw [hx] at h
      obtain ⟨h1, -, h3, l, h4⟩ := clearFrameH_result (hd := hd) (n := n) hw hv hr hx
      simp only [GS.removeFrame, h1] at h
      split at h
      · cases h
      · simp only [base, Res.ok.injEq, true_and] at h
        subst h
        have e : news f s1 (⟨GS.notify (.frameRemoved f) { s1.gs with g := s1.gs.g.removeVertex v f }, s1.heap⟩ : EG E) = [.frameRemoved f] := by
          simp [news, GS.notify, touches]
        refine ⟨?_, ?_⟩
        · change AMap.get (AMap.erase s1.gs.g.labels f) f = none
          rw [AMap.get_erase]; simp
        · rw [news_eq, news_trans (t := s1) h4 (l' := [(.frameRemoved f, s1.gs.g.removeVertex v f)]) rfl, h3]
          exact congrArg _ e

/-- demo: when item 1 goes, frame "log" gets item 3 -/
def demoArchive : IHandler Int := fun ev k _ =>
  match ev, k with
  | .itemRemoved "a" 1, 0 => .call (.graph (.addFrame "log")) true
  | .itemRemoved "a" 1, 1 => .call (.addItemToFrame "log" 3) true
  | _, _ => .done

example : ((hrun demoArchive 5 [.graph (.addFrame "a"), .addItem 1, .addItem 2, .addItem 3, .clearFrame "a"] (init demoHeap)).map demoLook) =
    some ([.frameAdded "a", .itemAdded "a" 1, .itemAdded "a" 2, .itemAdded "a" 3, .itemRemoved "a" 1, .frameAdded "log",
      .itemAdded "log" 3, .itemRemoved "a" 2, .itemRemoved "a" 3], [("a", []), ("log", [(8, [3])])]) := by decide +kernel

example : ((hrun demoArchive 5 [.graph (.addFrame "a"), .addItem 1, .addItem 2, .graph (.removeFrame "a")] (init demoHeap)).map demoLook) =
    some ([.frameAdded "a", .itemAdded "a" 1, .itemAdded "a" 2, .itemRemoved "a" 1, .frameAdded "log", .itemAdded "log" 3,
      .itemRemoved "a" 2, .frameRemoved "a"], [("log", [(8, [3])])]) := by decide +kernel

/-- the frame `f` has, in the graph `g`, an entry for type `t` without items: asking for the items hits the assert, the number of items
is 0, and still the frame says that it contains items of the type -/
def C93_empty_entry (f : FrameId) (t : TypeIdx) (u : EG E) : Prop :=
  getItemsT f t u = .ub "getItemsInternal: assert" ∧ getItemCount f t u = .ok 0 u ∧ containsItems f t u = .ok true u

theorem empty_entry_of {f : FrameId} {t : TypeIdx} {s u : EG E} (h : EmptyEntry f t s) (hg : u.gs.g = s.gs.g) : C93_empty_entry f t u := by
  obtain ⟨v, r, h1, h2, h3⟩ := h
  rw [← hg] at h1 h2
  refine ⟨?_, ?_, ?_⟩
  · simp [getItemsT, h1, h2, h3]
  · simp [getItemCount, readFrame, h1, h2, h3]
  · simp [containsItems, readFrame, h1, h2, h3]

theorem mem_split {m : AMap TypeIdx (List ItemId)} {t : TypeIdx} {l : List ItemId} (h : AMap.get m t = some l) : ∃ m1 m2, m = m1 ++ (t, l) :: m2 := by
  induction m with
  | nil => cases h
  | cons p m ih =>
    obtain ⟨t', l'⟩ := p
    simp only [AMap.get] at h
    split at h
    · rename_i ht
      simp only [Option.some.injEq] at h
      exact ⟨[], m, by rw [h]; simp [ht]⟩
    · obtain ⟨m1, m2, hm⟩ := ih h
      exact ⟨(t', l') :: m1, m2, by rw [hm]; rfl⟩

/-- In every state with a frame `f` that has items of type `t`, the last of which is `i`: the handlers that `clearFrame` tells about the
removal of `i` see a graph with an empty entry of type `t`. -/
theorem C93_empty_entry_seen (s : EG E) (f : FrameId) (v : VId) (r : VRec EFrame) (hv : s.gs.g.vertexOf f = some v)
    (hr : s.gs.g.findV v = some r) (t : TypeIdx) (l : List ItemId) (i : ItemId) (ht : AMap.get r.prop.items t = some (l ++ [i])) :
    ∃ s' x, clearFrame f s = .ok () s' ∧ x ∈ s'.gs.trace ∧ x.1 = .itemRemoved f i ∧
      ∀ u : EG E, u.gs.g = x.2 → C93_empty_entry f t u := by
  obtain ⟨m1, m2, hm⟩ := mem_split ht
  obtain ⟨u, h1, h2, -⟩ := clearFrame_last hv hr hm
  refine ⟨_, (.itemRemoved f i, u.gs.g), h2, ?_, rfl, fun w hw => empty_entry_of h1 hw⟩
  obtain ⟨tr, h3, -⟩ := clearTypes_eq f v m2 (modFrame v (EFrame.eraseType t) (notify (.itemRemoved f i) u))
  rw [h3]
  simp [modFrame, notify, GS.notify]

/-- the items of frame "a" as the handlers of a call see them -/
example : ((run [.graph (.addFrame "a"), .addItem 1, .addItem 3, .addItem 2, .clearFrame "a"] (init (E := Int) demoHeap)).map (fun s =>
      (s.gs.trace.drop 4).map (fun x => (x.1, x.2.verts.map (fun r => r.prop.items))))) =
    some [(.itemRemoved "a" 1, [[(7, [2]), (8, [3])]]), (.itemRemoved "a" 2, [[(7, []), (8, [3])]]), (.itemRemoved "a" 3, [[(8, [])]])] := by
  decide +kernel

/-- the same for the removal of the only item of a type through its iterator -/
theorem C93_iterator_empty_entry_seen (s : EG E) (f : FrameId) (v : VId) (r : VRec EFrame) (hv : s.gs.g.vertexOf f = some v)
    (hr : s.gs.g.findV v = some r) (t : TypeIdx) (i : ItemId) (ht : AMap.get r.prop.items t = some [i]) (hf : (s.heap i).frame = f) :
    ∃ s' x, removeItemAt f ⟨f, t, 0⟩ s = .ok [] s' ∧ x ∈ s'.gs.trace ∧ x.1 = .itemRemoved f i ∧
      ∀ u : EG E, u.gs.g = x.2 → C93_empty_entry f t u := by
  have hl : listOf f t s = some [i] := by simp [listOf, hv, hr, ht]
  have he : EmptyEntry f t (modFrame v (EFrame.setList t []) s) := emptyEntry_of (by simp [itemsAt, hr]) hv
  refine ⟨modFrame v (EFrame.eraseType t) (notify (.itemRemoved f i) (setItemFrame i "" (modFrame v (EFrame.setList t []) s))),
    (.itemRemoved f i, (modFrame v (EFrame.setList t []) s).gs.g), ?_, ?_, rfl, fun w hw => empty_entry_of he hw⟩
  · simp [removeItemAt, hv, hl, hf]
  · simp [modFrame, notify, GS.notify, setItemFrame]

example : ((run [.graph (.addFrame "a"), .addItem 1, .addItem 3, .removeItemAt "a" ⟨"a", 8, 0⟩, .removeItem 1] (init (E := Int) demoHeap)).map
      (fun s => (s.gs.trace.drop 3).map (fun x => (x.1, x.2.verts.map (fun r => r.prop.items))))) =
    some [(.itemRemoved "a" 3, [[(7, [1]), (8, [])]]), (.itemRemoved "a" 1, [[]])] := by decide +kernel

/-- A handler that throws when it hears of the removal of the last item `i` of type `t`: `clearFrame` ends with this exception, and the
empty entry stays. -/
theorem C93_throw_leaves_entry (hd : IHandler E) (n : Nat) (s : EG E) (f : FrameId) (v : VId) (r : VRec EFrame)
    (hv : s.gs.g.vertexOf f = some v) (hr : s.gs.g.findV v = some r) (t : TypeIdx) (l : List ItemId) (i : ItemId)
    (m1 m2 : AMap TypeIdx (List ItemId)) (hm : r.prop.items = m1 ++ (t, l ++ [i]) :: m2)
    (hfirst : i ∉ m1.flatMap (fun p => p.2) ++ l) (hd1 : ∀ s, hd (.itemRemoved f i) 0 s = .fail)
    (hd2 : ∀ j s, j ≠ i → hd (.itemRemoved f j) 0 s = .done) :
    ∃ x s', hexec hd (n + 1) (.clearFrame f) s = .throw x s' ∧ C93_empty_entry f t s' := by
  obtain ⟨u, h1, -, h3⟩ := clearFrame_last hv hr hm
  refine ⟨_, notify (.itemRemoved f i) u, h3 (notifyH hd n) ?_ (.runtimeError "thrown by the handler") _ ?_, empty_entry_of h1 rfl⟩
  · intro j hj s
    simp only [notifyH]
    rw [handleLoop.eq_def]
    simp only [hd2 j _ (fun h => hfirst (h ▸ hj))]
  · simp only [notifyH]
    rw [handleLoop.eq_def]
    simp only [hd1]

/-- demo: throws when an item of frame "a" is removed -/
def demoAngry : IHandler Int := fun ev _ _ =>
  match ev with
  | .itemRemoved "a" 2 => .fail
  | _ => .done

/-- item 2 is gone, its empty list is not -/
example : ((hrun demoAngry 5 [.graph (.addFrame "a"), .addItem 1, .addItem 2, .addItem 3, .clearFrame "a"] (init demoHeap)).map demoLook) =
    some ([.frameAdded "a", .itemAdded "a" 1, .itemAdded "a" 2, .itemAdded "a" 3, .itemRemoved "a" 1, .itemRemoved "a" 2],
      [("a", [(7, []), (8, [3])])]) := by decide +kernel

theorem tidy_of_ordinary {c : Cmd E} (h : C93_ordinary c) : c.tidy := by
  cases c with
  | graph c =>
    cases c with
    | emplaceFrame f p => exact ⟨h.1, h.2⟩
    | _ => trivial
  | _ => trivial

/-- No sequence of ordinary calls leads to an empty entry: the full statement fails. -/
theorem C93_statement_fails : ¬ C93_statement Int := by
  intro h
  have hr : ∃ s, run [.graph (.addFrame "a"), .addItem 2] (init (E := Int) demoHeap) = some s ∧
      ∃ s', (hexec demoAngry 2 (.clearFrame "a") s).st? = some s' ∧ s'.gs.g.verts.map (fun r => r.prop.items) = [[(7, [])]] := by
    refine ⟨_, rfl, _, rfl, ?_⟩
    decide +kernel
  obtain ⟨s, h1, s', h2, h3⟩ := hr
  obtain ⟨cs, h4, h5⟩ := h demoAngry 2 _ demoHeap s (by intro c hc; simp at hc; rcases hc with rfl | rfl <;> trivial) h1 (by
    intro ev k s c b he
    simp only [demoAngry] at he
    split at he <;> cases he) (.clearFrame "a") s' trivial h2
  have g1 := run_good (fun c hc => tidy_of_ordinary (by simp at hc; rcases hc with rfl | rfl <;> trivial)) (EG.Good.init demoHeap) h1
  have g2 := run_good (fun c hc => tidy_of_ordinary (h4 c hc)) g1 h5
  have ht := g2.tidy
  have hm : [((7 : TypeIdx), ([] : List ItemId))] ∈ s'.gs.g.verts.map (fun r => r.prop.items) := by rw [h3]; simp
  obtain ⟨r, hr, hr'⟩ := List.mem_map.1 hm
  exact (ht r hr).full (7, []) (by rw [hr']; simp) rfl

/-- A handler that removes the next item `j` when it hears that `clearFrame` removed item `i` (the first of its type): the iterator of
`clearFrame` is no longer valid, in every state. -/
theorem C93_next_item_removed (hd : IHandler E) (n : Nat) (s : EG E) (f : FrameId) (v : VId) (r : VRec EFrame)
    (hv : s.gs.g.vertexOf f = some v) (hr : s.gs.g.findV v = some r) (t : TypeIdx) (i j : ItemId) (l : List ItemId)
    (m : AMap TypeIdx (List ItemId)) (hm : r.prop.items = (t, i :: j :: l) :: m) (ho : s.heap j = ⟨t, f⟩) (b : Bool)
    (hd1 : ∀ s, hd (.itemRemoved f i) 0 s = .call (.removeItem j) b) (hd2 : ∀ s, hd (.itemRemoved f i) 1 s = .done)
    (hd3 : ∀ s, hd (.itemRemoved f j) 0 s = .done) :
    hexec hd (n + 3) (.clearFrame f) s = .ub "invalidated iterator" := by
  have hi : itemsAt v (modFrame v (EFrame.setList t (j :: l)) s) = some ((t, j :: l) :: m) := by
    rw [itemsAt_setList]
    simp [itemsAt, hr, hm, AMap.set]
  have key : ∀ u : EG E, u.gs.g.vertexOf f = some v → itemsAt v u = some ((t, j :: l) :: m) → u.heap j = ⟨t, f⟩ →
      ∃ w g, hexec hd (n + 2) (.removeItem j) u = .ok () w ∧ w.gs.trace = u.gs.trace ++ [(.itemRemoved f j, g)] := by
    intro u hu hiu hou
    simp only [itemsAt] at hiu
    obtain ⟨r', hr', hi'⟩ := Option.map_eq_some_iff.1 hiu
    have hnt : ∀ s, notifyH hd (n + 1) (.itemRemoved f j) s = .ok () (notify (.itemRemoved f j) s) := by
      intro s
      simp only [notifyH]
      rw [handleLoop.eq_def]
      simp only [hd3]
    rw [hexec_succ]
    simp only [execH, removeItemH, hou, hu, hr', hi', AMap.get, if_true, List.mem_cons, true_or, hnt]
    by_cases hz : ((j :: l).erase j).length = 0
    · rw [if_pos hz]; exact ⟨_, _, rfl, rfl⟩
    · rw [if_neg hz]; exact ⟨_, _, rfl, rfl⟩
  obtain ⟨w, g, h1, h2⟩ := key (notify (.itemRemoved f i) (modFrame v (EFrame.setList t (j :: l)) s)) hv hi ho
  have hn : notifyH hd (n + 2) (.itemRemoved f i) (modFrame v (EFrame.setList t (j :: l)) s) = .ok () w := by
    simp only [notifyH]
    rw [handleLoop.eq_def]
    simp only [hd1, h1]
    rw [handleLoop.eq_def]
    simp only [hd2]
  have ht : touched f (notify (.itemRemoved f i) (modFrame v (EFrame.setList t (j :: l)) s)) w = true := by
    simp [touched, h2, touches]
  rw [hexec_succ]
  simp only [execH, clearFrameH, hv, hr, hm, clearTypesH, clearListH, notifyUsing, hn, ht, true_or, if_true]

/-- demo: items 1 and 2 belong together -/
example : (hexec demoTwins 4 (.clearFrame "a") ((run [.graph (.addFrame "a"), .addItem 1, .addItem 2] (init (E := Int) demoHeap)).getD (init demoHeap))).st?.isNone =
    true := by decide +kernel

/-- demo: keeps an index of removed items in frame "log" and disturbs `clear` in other ways -/
def demoClearing (mode : Nat) : IHandler Int := fun ev k _ =>
  match ev, k, mode with
  | .itemRemoved "a" 1, 0, 0 => .call (.graph (.addFrame "log")) true
  | .itemRemoved "a" 1, 0, 1 => .call (.graph (.removeFrame "b")) true
  | .itemRemoved "a" 1, 0, 2 => .call (.graph (.addEdge "a" "b" 5)) true
  | _, _, _ => .done

/-- the result of `clear` with the handler above: the exception, the frames and their items -/
def demoCleared (mode : Nat) : Option (Option Exn × Option (List (FrameId × AMap TypeIdx (List ItemId)))) :=
  (run [.graph (.addFrame "a"), .graph (.addFrame "b"), .graph (.addFrame "c"), .addItem 1] (init (E := Int) demoHeap)).map fun s =>
    let x := hexec (demoClearing mode) 5 .clear s
    (x.exn?, x.st?.map fun s => s.gs.g.verts.map fun r => (r.prop.id, r.prop.items))

/-- `clear` collects the names of the frames first.  A handler that adds a frame: `clear` returns and the graph is not empty.  One that
removes a frame: `clear` throws `UnknownFrameException` and the remaining frames stay.  One that connects the frame:
`FrameStillConnectedException`, its items are gone. -/
theorem C93_clear_disturbed : demoCleared 0 = some (none, some [("log", [])]) ∧
    demoCleared 1 = some (some (.unknownFrame "b"), some [("c", [])]) ∧
    demoCleared 2 = some (some (.frameStillConnected "a"), some [("a", []), ("b", []), ("c", [])]) := by
  refine ⟨?_, ?_, ?_⟩ <;> decide +kernel

/-- without a handler everything is gone -/
example : demoCleared 3 = some (none, some []) := by decide +kernel

/-- demo: various disturbances of `clearFrame` and `removeFrame` -/
def demoNosy (mode : Nat) : IHandler Int := fun ev k _ =>
  match ev, k, mode with
  | .itemRemoved "a" 1, 0, 0 => .call (.addItemToFrame "a" 3) false
  | .itemRemoved "a" 1, 1, 0 => .call (.removeItem 3) false
  | .itemRemoved "a" 1, 0, 1 => .call (.clearFrame "a") false
  | .itemRemoved "a" 1, 0, 2 => .call (.setItemFrame 3 "log") false
  | .itemRemoved "a" 1, 0, 3 => .fail
  | _, _, _ => .done

/-- events, items, and the frames that items 1 and 3 know, after the calls -/
def demoNosyRun (mode : Nat) (cs : List (Cmd Int)) : Option ((List Event × List (FrameId × AMap TypeIdx (List ItemId))) × FrameId × FrameId) :=
  (hrun (demoNosy mode) 5 cs (init demoHeap)).map fun s => (demoLook s, (s.heap 1).frame, (s.heap 3).frame)

/-- an item that is added and removed again while `clearFrame` runs, and a `clearFrame` within `clearFrame` that erases the empty entry
without an event: the iterators are invalid.  What the handler does to other items stays.  An exception of the handler ends
`removeFrame` before the frame is removed. -/
example : demoNosyRun 0 [.graph (.addFrame "a"), .addItem 1, .clearFrame "a"] = none ∧
    demoNosyRun 1 [.graph (.addFrame "a"), .addItem 1, .clearFrame "a"] = none ∧
    demoNosyRun 2 [.graph (.addFrame "a"), .addItem 1, .graph (.removeFrame "a")] =
      some (([.frameAdded "a", .itemAdded "a" 1, .itemRemoved "a" 1, .frameRemoved "a"], []), "a", "log") ∧
    demoNosyRun 3 [.graph (.addFrame "a"), .addItem 1, .graph (.removeFrame "a")] =
      some (([.frameAdded "a", .itemAdded "a" 1, .itemRemoved "a" 1], [("a", [(7, [])])]), "a", "a") := by
  refine ⟨?_, ?_, ?_, ?_⟩ <;> decide +kernel

/-- without disturbance: the item knows its new frame, the removal of the only item of a type through its iterator erases the entry, and
`clear` removes the frames in the order of their names in the list -/
example : demoNosyRun 4 [.graph (.addFrame "a"), .graph (.addFrame "b"), .addItemToFrame "b" 1, .addItem 3, .removeItemAt "b" ⟨"b", 7, 0⟩] =
      some (([.frameAdded "a", .frameAdded "b", .itemAdded "b" 1, .itemAdded "a" 3, .itemRemoved "b" 1], [("a", [(8, [3])]), ("b", [])]), "", "a") ∧
    demoNosyRun 4 [.graph (.addFrame "a"), .graph (.addFrame "b"), .addItemToFrame "b" 1, .clear] =
      some (([.frameAdded "a", .frameAdded "b", .itemAdded "b" 1, .frameRemoved "a", .itemRemoved "b" 1, .frameRemoved "b"], []), "b", "a") := by
  refine ⟨?_, ?_⟩ <;> decide +kernel

/-- demo: removes an item of another frame (0), catches an exception and goes on (1), does not catch it (2) -/
def demoElsewhere (mode : Nat) : IHandler Int := fun ev k _ =>
  match ev, k, mode with
  | .itemRemoved "a" 1, 0, 0 => .call (.removeItem 3) false
  | .itemRemoved "a" 1, 0, 1 => .call (.addItemToFrame "z" 3) true
  | .itemRemoved "a" 1, 1, 1 => .call (.graph (.addFrame "z")) true
  | .itemRemoved "a" 1, 0, 2 => .call (.addItemToFrame "z" 3) false
  | .itemRemoved "a" 1, 1, 2 => .call (.graph (.addFrame "z")) true
  | _, _, _ => .done

/-- An exception of the handler during a removal through an iterator: the list is empty and its entry stays.  Removing an item of another
frame does no harm to `clearFrame`.  A caught exception lets the handler go on, any other one ends it and the call. -/
example : demoNosyRun 3 [.graph (.addFrame "a"), .addItem 1, .removeItemAt "a" ⟨"a", 7, 0⟩] =
      some (([.frameAdded "a", .itemAdded "a" 1, .itemRemoved "a" 1], [("a", [(7, [])])]), "", "a") ∧
    (hrun (demoElsewhere 0) 5 [.graph (.addFrame "a"), .graph (.addFrame "b"), .addItemToFrame "b" 3, .addItem 1, .clearFrame "a"] (init demoHeap)).map
      demoLook = some ([.frameAdded "a", .frameAdded "b", .itemAdded "b" 3, .itemAdded "a" 1, .itemRemoved "a" 1, .itemRemoved "b" 3], [("a", []), ("b", [])]) ∧
    (hrun (demoElsewhere 1) 5 [.graph (.addFrame "a"), .addItem 1, .clearFrame "a"] (init demoHeap)).map
      demoLook = some ([.frameAdded "a", .itemAdded "a" 1, .itemRemoved "a" 1, .frameAdded "z"], [("a", []), ("z", [])]) ∧
    (hrun (demoElsewhere 2) 5 [.graph (.addFrame "a"), .addItem 1, .clearFrame "a"] (init demoHeap)).map
      demoLook = some ([.frameAdded "a", .itemAdded "a" 1, .itemRemoved "a" 1], [("a", [(7, [])])]) := by
  refine ⟨?_, ?_, ?_, ?_⟩ <;> decide +kernel

end EG
end Verif
