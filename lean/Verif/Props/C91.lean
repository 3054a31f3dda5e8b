import Verif.Lemmas.Messages
/-!
# C91: the text of an exception tells what happened

Full statement: two exceptions with the same text (`what()`) are of the same class and about the same frames, types and items.

Fails: the texts about two frames only separate the names by " and ", and the text ends at the first zero character of a name.
-/

namespace Verif
open Msg

/-- the frame names and type names in an exception -/
def Msg.Err.names : Err → List (List Char)
  | .edgeAlreadyExists a b | .unknownTransform a b | .unknownEdge a b => [a, b]
  | .unknownFrame a | .foundFrame a | .frameAlreadyExists a | .frameStillConnected a | .unknownItem a _ => [a]
  | .noItemsOfType a t => [a, t]
  | _ => []

/-- the first name of two cannot be confused with the words after it -/
def Msg.Err.Clear : Err → Prop
  | .edgeAlreadyExists a _ | .unknownTransform a _ | .unknownEdge a _ => Clean andTxt a
  | .noItemsOfType _ t => Clean inFrameTxt t
  | _ => True

/-- the class of an exception -/
def Msg.Err.cls : Err → Nat
  | .invalidPath => 0
  | .edgeAlreadyExists .. => 1
  | .unknownTransform .. => 2
  | .unknownEdge .. => 3
  | .unknownFrame .. => 4
  | .foundFrame .. => 5
  | .frameAlreadyExists .. => 6
  | .unknownItem .. => 7
  | .frameStillConnected .. => 8
  | .noItemsOfType .. => 9
  | .nullVertex => 10
  | .emptyPath => 11
  | .cloneNotImplemented => 12

private def first : Nat → List Char
  | 0 => "Inva".toList
  | 1 | 3 => "Edge".toList
  | 2 => "Tran".toList
  | 4 | 6 | 8 => "Fram".toList
  | 5 => "Foun".toList
  | 7 => "The ".toList
  | 9 => "Ther".toList
  | 10 => "Enco".toList
  | 11 => "Path".toList
  | _ => "Clon".toList

private theorem take_msg (u : Nat → List Char) (e : Err) : (msg u e).take 4 = first e.cls := by
  have key : ∀ p x q : List Char, 4 ≤ p.length → p.take 4 = q → (p ++ x).take 4 = q := by
    intro p x q hp hq
    rw [List.take_append_of_le_length hp, hq]
  cases e <;> rw [msg, Err.cls]
  case invalidPath => decide +kernel
  case nullVertex => decide +kernel
  case emptyPath => decide +kernel
  case cloneNotImplemented => decide +kernel
  all_goals refine key _ _ _ ?_ ?_ <;> decide +kernel

private def last : Nat → List Char
  | 1 | 6 => "y exists".toList
  | 2 | 3 => "t exists".toList
  | 4 => "'t exist".toList
  | 8 => "he frame".toList
  | _ => []

private theorem last_msg (u : Nat → List Char) (e : Err) : last e.cls <:+ msg u e := by
  have key : ∀ q p x : List Char, q <:+ x → q <:+ p ++ x := fun q p x h => h.trans (List.suffix_append _ _)
  cases e <;> rw [msg, Err.cls]
  case edgeAlreadyExists a b => refine key _ _ _ (key _ _ _ (key _ _ _ (key _ _ _ ?_))); decide +kernel
  case unknownTransform a b => refine key _ _ _ (key _ _ _ (key _ _ _ (key _ _ _ ?_))); decide +kernel
  case unknownEdge a b => refine key _ _ _ (key _ _ _ (key _ _ _ (key _ _ _ ?_))); decide +kernel
  case unknownFrame a => refine key _ _ _ (key _ _ _ ?_); decide +kernel
  case frameAlreadyExists a => refine key _ _ _ (key _ _ _ ?_); decide +kernel
  case frameStillConnected a => refine key _ _ _ (key _ _ _ ?_); decide +kernel
  all_goals exact List.nil_suffix

private theorem cls_of : ∀ i j : Fin 13, first i = first j → (last i <:+ last j ∨ last j <:+ last i) → i = j := by decide +kernel

private theorem cls_lt (e : Err) : e.cls < 13 := by cases e <;> rw [Err.cls] <;> decide

/-- Exceptions of different classes have different texts, whatever the names. -/
theorem C91_class (u : Nat → List Char) (e e' : Err) (h : msg u e = msg u e') : e.cls = e'.cls := by
  have hl : last e.cls <:+ last e'.cls ∨ last e'.cls <:+ last e.cls :=
    List.suffix_or_suffix_of_suffix (last_msg u e) (by rw [h]; exact last_msg u e')
  have hf : first e.cls = first e'.cls := by rw [← take_msg u e, ← take_msg u e', h]
  exact congrArg Fin.val (cls_of ⟨e.cls, cls_lt e⟩ ⟨e'.cls, cls_lt e'⟩ hf hl)

/-- Exceptions whose first name cannot be confused with the words after it: the same text, the same class and names. -/
theorem C91_same_text_partial (u : Nat → List Char) (hu : Function.Injective u) (hlen : ∀ x y, (u x).length = (u y).length) (e e' : Err)
    (hc : e.Clear) (hc' : e'.Clear) (h : msg u e = msg u e') : e = e' := by
  have hcl := C91_class u e e' h
  cases e <;> cases e' <;> first | rfl | (exact absurd hcl (by simp only [Err.cls]; decide)) | skip
  case edgeAlreadyExists a b a' b' =>
    have h := List.append_cancel_left h
    rw [← List.append_assoc andTxt, ← List.append_assoc andTxt, ← List.append_assoc, ← List.append_assoc a'] at h
    obtain ⟨h1, h2⟩ := split_unique (by decide +kernel) (List.append_cancel_right h) hc hc'
    rw [h1, h2]
  case unknownTransform a b a' b' =>
    have h := List.append_cancel_left h
    rw [← List.append_assoc andTxt, ← List.append_assoc andTxt, ← List.append_assoc, ← List.append_assoc a'] at h
    obtain ⟨h1, h2⟩ := split_unique (by decide +kernel) (List.append_cancel_right h) hc hc'
    rw [h1, h2]
  case unknownEdge a b a' b' =>
    have h := List.append_cancel_left h
    rw [← List.append_assoc andTxt, ← List.append_assoc andTxt, ← List.append_assoc, ← List.append_assoc a'] at h
    obtain ⟨h1, h2⟩ := split_unique (by decide +kernel) (List.append_cancel_right h) hc hc'
    rw [h1, h2]
  case unknownFrame a a' => rw [List.append_cancel_right (List.append_cancel_left h)]
  case foundFrame a a' => rw [List.append_cancel_left h]
  case frameAlreadyExists a a' => rw [List.append_cancel_right (List.append_cancel_left h)]
  case frameStillConnected a a' => rw [List.append_cancel_right (List.append_cancel_left h)]
  case unknownItem a x a' x' =>
    obtain ⟨h1, h2⟩ := List.append_inj (List.append_cancel_left h) (hlen x x')
    rw [hu h1, List.append_cancel_right (List.append_cancel_left h2)]
  case noItemsOfType a t a' t' =>
    have h := List.append_cancel_left h
    rw [← List.append_assoc inFrameTxt, ← List.append_assoc inFrameTxt, ← List.append_assoc,
      ← List.append_assoc t'] at h
    obtain ⟨h1, h2⟩ := split_unique (by decide +kernel) (List.append_cancel_right h) hc hc'
    rw [h1, h2]

/-- `what()` is the whole text if no name contains a zero character. -/
theorem C91_what (u : Nat → List Char) (hu : ∀ x, '\x00' ∉ u x) (e : Err) (hn : ∀ a ∈ e.names, '\x00' ∉ a) : what u e = msg u e := by
  have lit : ∀ l : List Char, l.all (· ≠ '\x00') = true → '\x00' ∉ l := by
    intro l hl hm
    have := List.all_eq_true.1 hl _ hm
    simp at this
  have : '\x00' ∉ msg u e := by
    cases e <;> rw [msg]
    all_goals try simp only [List.mem_append, not_or]
    case edgeAlreadyExists a b =>
      exact ⟨lit _ (by decide +kernel), hn a (by simp [Err.names]), lit _ (by decide +kernel), hn b (by simp [Err.names]), lit _ (by decide +kernel)⟩
    case unknownTransform a b =>
      exact ⟨lit _ (by decide +kernel), hn a (by simp [Err.names]), lit _ (by decide +kernel), hn b (by simp [Err.names]), lit _ (by decide +kernel)⟩
    case unknownEdge a b =>
      exact ⟨lit _ (by decide +kernel), hn a (by simp [Err.names]), lit _ (by decide +kernel), hn b (by simp [Err.names]), lit _ (by decide +kernel)⟩
    case unknownFrame a => exact ⟨lit _ (by decide +kernel), hn a (by simp [Err.names]), lit _ (by decide +kernel)⟩
    case foundFrame a => exact ⟨lit _ (by decide +kernel), hn a (by simp [Err.names])⟩
    case frameAlreadyExists a => exact ⟨lit _ (by decide +kernel), hn a (by simp [Err.names]), lit _ (by decide +kernel)⟩
    case unknownItem a x => exact ⟨lit _ (by decide +kernel), hu x, lit _ (by decide +kernel), hn a (by simp [Err.names]), lit _ (by decide +kernel)⟩
    case frameStillConnected a => exact ⟨lit _ (by decide +kernel), hn a (by simp [Err.names]), lit _ (by decide +kernel)⟩
    case noItemsOfType a t => exact ⟨lit _ (by decide +kernel), hn t (by simp [Err.names]), lit _ (by decide +kernel), hn a (by simp [Err.names]), lit _ (by decide +kernel)⟩
    all_goals exact lit _ (by decide +kernel)
  have key : ∀ l : List Char, '\x00' ∉ l → l.takeWhile (· ≠ '\x00') = l := by
    intro l
    induction l with
    | nil => intro _; rfl
    | cons c l ih =>
      intro h
      rw [List.mem_cons, not_or] at h
      rw [List.takeWhile_cons, if_pos (by simpa using Ne.symm h.1), ih h.2]
  exact key _ this

/-- Every other first name of two is confused: there are other names with the same text. -/
theorem C91_confused_fails (u : Nat → List Char) (a b : List Char) (hc : ¬ Clean andTxt a) :
    ∃ a' b', a' ≠ a ∧ msg u (.unknownEdge a' b') = msg u (.unknownEdge a b) ∧
      msg u (.unknownTransform a' b') = msg u (.unknownTransform a b) ∧
      msg u (.edgeAlreadyExists a' b') = msg u (.edgeAlreadyExists a b) := by
  obtain ⟨a', b', hl, h⟩ := split_other (by decide +kernel) hc b
  refine ⟨a', b', fun hh => by rw [hh] at hl; omega, ?_⟩
  have key : ∀ p s : List Char, p ++ (a' ++ (andTxt ++ (b' ++ s))) = p ++ (a ++ (andTxt ++ (b ++ s))) := by
    intro p s
    rw [← List.append_assoc andTxt, ← List.append_assoc a', h]
    simp
  exact ⟨key _ _, key _ _, key _ _⟩

/-- Names with a zero character are cut, so frames with different names have the same text in `what()`. -/
theorem C91_zero_fails (u : Nat → List Char) (a x y : List Char) :
    what u (.unknownFrame (a ++ '\x00' :: x)) = what u (.unknownFrame (a ++ '\x00' :: y)) := by
  have key : ∀ p x y : List Char, (p ++ '\x00' :: x).takeWhile (· ≠ '\x00') = (p ++ '\x00' :: y).takeWhile (· ≠ '\x00') := by
    intro p x y
    induction p with
    | nil => simp
    | cons c p ih => simp only [List.cons_append, List.takeWhile_cons]; rw [ih]
  have := key (frameTxt ++ a) (x ++ missing1Txt) (y ++ missing1Txt)
  simpa only [what, msg, List.append_assoc, List.cons_append] using this

/-- "a and" and "b" is confused with "a" and "and b", although the first name does not contain " and ". -/
theorem C91_fails (u : Nat → List Char) : what u (.unknownEdge "a and".toList "b".toList) = what u (.unknownEdge "a".toList "and b".toList) := by
  simp only [what, msg]
  decide +kernel

example : what (fun _ => []) (.unknownFrame "door".toList) = "Frame door doesn't exist".toList := by decide +kernel

example : what (fun _ => []) (.edgeAlreadyExists "a".toList "b".toList) = "Edge between a and b already exists".toList := by decide +kernel

example : what (fun _ => "77".toList) (.unknownItem "a".toList 77) = "The item with uuid '77' is not part of frame 'a'".toList := by
  decide +kernel

example : what (fun _ => []) (.noItemsOfType "a".toList "T".toList) = "There are no items of type 'T' in frame 'a'".toList := by
  decide +kernel

example : Err.Clear (.unknownEdge "sand".toList "and".toList) := by
  show ¬ _
  decide +kernel

example : what (fun _ => []) (.unknownEdge "a".toList "b".toList) = "Edge between a and b doesn't exists".toList ∧
    what (fun _ => []) (.unknownTransform "a".toList "b".toList) = "Transform between a and b doesn't exists".toList ∧
    what (fun n => if n = 77 then "77".toList else []) (.unknownItem "a".toList 77) =
      "The item with uuid '77' is not part of frame 'a'".toList := by
  refine ⟨?_, ?_, ?_⟩ <;> decide +kernel

/-- the class of an event -/
def Event.cls : Event → Nat
  | .edgeAdded .. => 0
  | .edgeModified .. => 1
  | .edgeRemoved .. => 2
  | .frameAdded .. => 3
  | .frameRemoved .. => 4
  | .itemAdded .. => 5
  | .itemRemoved .. => 6

private theorem event_prefix (e e' : Event) (h : eventText e <+: eventText e') : e.cls = e'.cls := by
  have key : ∀ x y : Event, (eventText x).isPrefixOf (eventText y) = true → x.cls = y.cls := by
    intro x y
    cases x <;> cases y <;> first | exact fun _ => rfl | (intro h; exact absurd h (by simp only [eventText]; decide +kernel))
  exact key e e' (List.isPrefixOf_iff_prefix.2 h)

/-- The text of events (`operator<<`), also of many events written one behind the other without anything between them, tells the classes of
the events and their order. -/
theorem C91_event_text (l l' : List Event) (h : l.flatMap eventText = l'.flatMap eventText) : l.map Event.cls = l'.map Event.cls := by
  have hne : ∀ e : Event, eventText e ≠ [] := by
    intro e
    cases e <;> simp only [eventText] <;> decide +kernel
  have hcls : ∀ e e' : Event, e.cls = e'.cls → eventText e = eventText e' := by
    intro e e' h
    cases e <;> cases e' <;> first | rfl | exact absurd h (by simp [Event.cls])
  induction l generalizing l' with
  | nil =>
    cases l' with
    | nil => rfl
    | cons e l' => exact absurd (List.append_eq_nil_iff.1 h.symm).1 (hne e)
  | cons e l ih =>
    cases l' with
    | nil => exact absurd (List.append_eq_nil_iff.1 h).1 (hne e)
    | cons e' l' =>
      rw [List.flatMap_cons, List.flatMap_cons] at h
      have hc : e.cls = e'.cls := by
        rcases List.append_eq_append_iff.1 h with ⟨x, h1, _⟩ | ⟨x, h1, _⟩
        · exact event_prefix e e' ⟨x, h1.symm⟩
        · exact (event_prefix e' e ⟨x, h1.symm⟩).symm
      rw [hcls e e' hc] at h
      simp only [List.map_cons, hc, ih l' (List.append_cancel_left h)]

/-- what an event is about and what happened to it -/
def Event.words : Event → List Char × List Char
  | .edgeAdded .. => ("EDGE".toList, "ADDED".toList)
  | .edgeModified .. => ("EDGE".toList, "MODIFIED".toList)
  | .edgeRemoved .. => ("EDGE".toList, "REMOVED".toList)
  | .frameAdded .. => ("FRAME".toList, "ADDED".toList)
  | .frameRemoved .. => ("FRAME".toList, "REMOVED".toList)
  | .itemAdded .. => ("ITEM".toList, "ADDED".toList)
  | .itemRemoved .. => ("ITEM".toList, "REMOVED".toList)

/-- The text of an event begins with these two words, and with those of no other kind of event. -/
theorem C91_event_says (e e' : Event) : e.words.1 ++ '_' :: e.words.2 <+: eventText e' ↔ e.cls = e'.cls := by
  rw [← List.isPrefixOf_iff_prefix]
  cases e <;> cases e' <;> simp only [Event.words, eventText, Event.cls] <;> decide +kernel

/-- an item added to a frame -/
example : eventText (.itemAdded "a" 3) = "ITEM_ADDED".toList ++ "_TO_FRAME".toList := by
  simp only [eventText]
  decide +kernel

example : [Event.frameAdded "a", .edgeRemoved "a" "b"].flatMap eventText = "FRAME_ADDEDEDGE_REMOVED".toList := by
  simp only [List.flatMap_cons, List.flatMap_nil, eventText]
  decide +kernel

example : eventText (.edgeModified "a" "b" 0 1) = "EDGE_MODIFIED".toList ∧ eventText (.edgeAdded "a" "b" 0) = "EDGE_ADDED".toList ∧
    eventText (.itemAdded "a" 3) = "ITEM_ADDED_TO_FRAME".toList ∧ eventText (.itemRemoved "a" 3) = "ITEM_REMOVED_FROM_FRAME".toList ∧
    eventText (.frameRemoved "a") = "FRAME_REMOVED".toList := by
  simp only [eventText]
  decide +kernel

end Verif
