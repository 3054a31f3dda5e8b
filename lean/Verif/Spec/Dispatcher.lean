import Verif.Model.Dispatcher
/-! # What a dispatcher should do, told from the history of calls -/

namespace Verif

/-- how often the frame is announced -/
def announcements (f : FrameId) (es : List Event) : Nat := es.countP (fun e => decide (e = .frameAdded f))

/-- every awaited name was announced at least as often as it was named -/
def Complete (fs : List FrameId) (es : List Event) : Prop := ∀ f, fs.count f ≤ announcements f es

/-- callbacks registered for a kind of event, in order -/
def registered (k : EventKind) : List DCmd → List Nat
  | [] => []
  | .addCallback k' c :: h => if k' = k then c :: registered k h else registered k h
  | _ :: h => registered k h

/-- is the dispatcher enabled after these calls? -/
def switchedOn : Bool → List DCmd → Bool
  | b, [] => b
  | _, .enable b :: h => switchedOn b h
  | b, _ :: h => switchedOn b h

/-- the event that the callbacks of a kind are about -/
def Event.about (e : Event) : EventKind → Prop
  | .edgeAdded => ∃ o t d, e = .edgeAdded o t d
  | .edgeRemoved => ∃ o t, e = .edgeRemoved o t
  | .edgeModified => ∃ o t d d', e = .edgeModified o t d d'
  | .itemAdded => ∃ f i, e = .itemAdded f i
  | .itemRemoved => ∃ f i, e = .itemRemoved f i
  | .frameAdded => ∃ f, e = .frameAdded f
  | .frameRemoved => ∃ f, e = .frameRemoved f

/-- the calls of callbacks that are expected when `rest` follows after `past` -/
def expectedCalls (past : List DCmd) : List DCmd → List (Nat × Event)
  | [] => []
  | .notify e :: rest =>
    (if switchedOn true past then (registered e.kind past).map (fun c => (c, e)) else []) ++ expectedCalls (past ++ [.notify e]) rest
  | c :: rest => expectedCalls (past ++ [c]) rest

/-- calls that have nothing to do with waiting -/
def DCmd.noWait : DCmd → Bool
  | .waitForFrame _ => false
  | .checkWaitingForFrames _ => false
  | _ => true

end Verif
