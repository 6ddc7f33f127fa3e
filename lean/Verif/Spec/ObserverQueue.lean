import Verif.Model.ObserverQueue

/-!
# Thread of the observer — what is expected
-/

namespace Verif.ObserverQueueSpec

open Verif.ObserverQueue

/-- What other threads asked for, in their order. -/
def asked : List Op → List Event
  | [] => []
  | .add n :: os => .work n :: asked os
  | _ :: os => asked os

def isWork : Event → Bool
  | .work _ => true
  | _ => false

/-- The event being executed. -/
def running (w : World) : List Event := match w.loop with
  | .exec e => [e]
  | _ => []

/-- Events executed, in their order. -/
def executed (w : World) : List Event := w.done.map Prod.fst

/-- Calls of `stop`. -/
def isStop : Op → Bool
  | .stop _ => true
  | _ => false

def noStop (os : List Op) : Prop := ∀ o ∈ os, isStop o = false

/-- Purges that are going to happen: the timer runs, or they are queued or being executed. -/
def purges (w : World) : Nat := (if w.timer then 1 else 0) + w.queue.count .purge + (running w).count .purge

/-- No purge failed. -/
def purgesFine (w : World) : Prop := (Event.purge, true) ∉ w.done

/-- Only steps of the main loop. -/
def onlyLoop (os : List Op) : Prop := ∀ o ∈ os, ∃ r t, o = .loop r t

/-- Number of steps of the main loop. -/
def loopSteps (os : List Op) : Nat := os.countP (fun o => match o with | .loop _ _ => true | _ => false)

end Verif.ObserverQueueSpec
