/-!
# Thread of the observer — `fail2ban/server/observer.py`, class `ObserverThread`

The main loop, calls of `add`, the timer of the purge, and `stop` are split into steps that can happen in any order. There is one `threading.Event`; `self._notify` is this one or
`None`. The queue, under its lock, is changed in one step.
-/

namespace Verif.ObserverQueue

/-- Events: work added by other threads or by timers (`failureFound`, `banFound`, `prolongBan`), and those of the observer itself. -/
inductive Event
  | work (n : Nat)
  | alive
  | purge
  | shutdown
  deriving DecidableEq

/-- Where the main loop is (observer.py 185, 203, 205, 208, 210-216, 217-221, 226, 229, 231, 236-239, 242, 248). -/
inductive Loop
  | arm
  | alive
  | top
  | inner
  | fetch
  | exec (e : Event)
  | sleeping
  | waiting
  | clearing
  | nap
  | closing
  | cleared
  | ended
  deriving DecidableEq

/-- A thread in `pulse_notify` (observer.py 146-153): before reading `_paused`, before reading `_notify`, before `set`. -/
inductive Helper
  | paused
  | notify
  | set
  deriving DecidableEq

/-- A thread in `stop` (observer.py 268-289): before `set` (277), before `_notify` is removed (279), in the loop of `wait_empty` (307), before its result (313), then 282, 283, 284 or 287, and
in `wait_idle` and at the end of line 288. -/
inductive Stop
  | none
  | set (force : Bool)
  | drop (force : Bool)
  | poll (force : Bool)
  | judge (force : Bool)
  | clear
  | deactivate
  | pause
  | restore
  | idle
  | full
  | result (b : Bool)
  deriving DecidableEq

/-- The observer and its threads. `timer` is true while the timer `DB_PURGE` is running. To state properties: `added` are all events ever queued, `done` those executed, and whether they raised an
exception, `lost` those dropped at the end. -/
structure World where
  queue : List Event
  notify : Bool
  flag : Bool
  paused : Bool
  active : Bool
  idle : Bool
  loop : Loop
  helpers : List Helper
  timer : Bool
  stopper : Stop
  added : List Event
  done : List (Event × Bool)
  lost : List Event
  deriving DecidableEq

/-- After `__init__` and `start()` (observer.py 63-82, 263-266); `start` of the thread. -/
def start : World := ⟨[], true, false, false, true, true, .arm, [], false, .none, [], [], []⟩

/-- What happens: a step of the main loop (whether the event raises an exception, whether waiting times out), `add` by any thread, a step of a thread in `pulse_notify`, `paused` is set,
the timer fires, `stop` is called, a step of it (whether its time is over). -/
inductive Op
  | loop (raises timeout : Bool)
  | add (n : Nat)
  | pulse (i : Nat)
  | pause (b : Bool)
  | fire
  | stop (force : Bool)
  | stopper (expired : Bool)
  deriving DecidableEq

/-- `add_wn(event)` (observer.py 163-168) -/
def append (w : World) (e : Event) : World := { w with queue := w.queue ++ [e], added := w.added ++ [e] }

/-- `add(event)` (observer.py 155-161): the thread goes on with `pulse_notify`. -/
def add (w : World) (e : Event) : World := { append w e with helpers := w.helpers ++ [.paused] }

/-- `meth(*ev[1:])` and its exceptions (observer.py 217-224); `db_purge` (356-361) starts the timer again, but not if `purge()` raises an exception. -/
def execute (w : World) (e : Event) (raises : Bool) : World :=
  { w with done := w.done ++ [(e, raises)], timer := w.timer || (e == .purge && !raises), loop := .inner }

/-- A step of the main loop (observer.py 183-251). The end of the first `add` (203) is a thread of its own here. -/
def loopStep (w : World) (raises timeout : Bool) : World :=
  match w.loop with
  | .arm => { w with timer := true, loop := .alive }
  | .alive => { add w .alive with loop := .top }
  | .top => if w.active then { w with idle := false, loop := .inner } else { w with loop := .closing }
  | .inner => { w with loop := if w.paused then .sleeping else .fetch }
  | .fetch => match w.queue with
    | [] => { w with loop := .sleeping }
    | e :: q => { w with queue := q, loop := .exec e }
  | .exec e => execute w e raises
  | .sleeping => if w.notify then { w with idle := true, loop := .waiting } else { w with loop := .nap }
  | .waiting => if w.flag || timeout then { w with loop := .clearing } else w
  | .clearing => { w with flag := false, loop := .top }
  | .nap => { w with loop := if w.queue.isEmpty then .closing else .top }
  | .closing => { w with notify := false, loop := .cleared }
  | .cleared => { w with lost := w.queue, queue := [], idle := true, loop := .ended }
  | .ended => w

/-- A step of a thread in `pulse_notify` (observer.py 149-152) -/
def pulseStep (w : World) (i : Nat) : World :=
  match w.helpers[i]? with
  | some .paused => { w with helpers := if w.paused then w.helpers.eraseIdx i else w.helpers.set i .notify }
  | some .notify => { w with helpers := if w.notify then w.helpers.set i .set else w.helpers.eraseIdx i }
  | some .set => { w with flag := true, helpers := w.helpers.eraseIdx i }
  | none => w

/-- `paused = b` (observer.py 334-340) -/
def setPaused (w : World) (b : Bool) : World := if w.paused = b then w else { w with paused := b, helpers := w.helpers ++ [.paused] }

/-- The timer fires (observer.py 117-119) -/
def fire (w : World) : World := if w.timer then { add w .purge with timer := false } else w

/-- `stop()` is called (observer.py 269-274, 289), unless another call did not return yet. -/
def stop (w : World) (force : Bool) : World :=
  match w.stopper with
  | .none => if w.active && w.notify then { append w .shutdown with stopper := .set force } else { w with stopper := .result true }
  | .result _ => if w.active && w.notify then { append w .shutdown with stopper := .set force } else { w with stopper := .result true }
  | _ => w

/-- A step of `stop()` (observer.py 277-288, 299-313, 319-328) -/
def stopStep (w : World) (expired : Bool) : World :=
  match w.stopper with
  | .none => w
  | .set f => { w with flag := true, stopper := .drop f }
  | .drop f => { w with notify := false, stopper := .poll f }
  | .poll f => if w.queue.isEmpty || expired then { w with stopper := .judge f } else w
  | .judge f => { w with stopper := if w.queue.isEmpty || f then .clear else .restore }
  | .clear => { w with flag := false, stopper := .deactivate }
  | .deactivate => { w with active := false, stopper := .pause }
  | .pause => { w with paused := true, stopper := .idle }
  | .restore => { w with notify := true, stopper := .idle }
  | .idle => if w.idle then { w with stopper := .full } else if expired then { w with stopper := .result false } else w
  | .full => { w with stopper := .result w.queue.isEmpty }
  | .result _ => w

/-- One thing that happens. -/
def step (w : World) : Op → World
  | .loop r t => loopStep w r t
  | .add n => add w (.work n)
  | .pulse i => pulseStep w i
  | .pause b => setPaused w b
  | .fire => fire w
  | .stop f => stop w f
  | .stopper x => stopStep w x

/-- Several. -/
def run (w : World) : List Op → World
  | [] => w
  | o :: os => run (step w o) os

end Verif.ObserverQueue
