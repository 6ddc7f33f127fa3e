/-!
# Background service — `fail2ban/helpers.py` 486-530

Automatic garbage collection is switched off (`gc.set_threshold(0)`, line 507), and threads of all jails call `service` of the only instance instead (failmanager.py 47, 123,
148, 164). One step of a thread is one access to something shared; in between others run. Time is that of `MyTime.time()` at the step, in seconds.

Simplifications: nobody calls with `wait=True`, so that the mutex is only tried; `gc.collect` raises nothing and is one step.
-/

namespace Verif.BgService

/-- Where a thread is in `service(force)` (lines 512-530) -/
inductive Pc where
  /-- not in a call; the result of the last one -/
  | out (result : Bool)
  /-- reads the counter: `self.__count -= 1` (line 513) -/
  | read (force : Bool)
  /-- writes the counter that was read (line 513) -/
  | write (force : Bool) (v : Int)
  /-- `if not force and (self.__count > 0 or …)` (line 515) -/
  | testCount (force : Bool)
  /-- `MyTime.time() < self.__serviceTime` (line 515) -/
  | testTime
  /-- `if not BgService._mutex.acquire(wait)` (line 518) -/
  | acquire
  /-- `if MyTime.time() < self.__serviceTime` in the lock (line 522) -/
  | again
  /-- `gc.collect()` (line 524) -/
  | collect
  /-- `self.__serviceTime = …` (line 525) -/
  | setTime
  /-- `self.__count = …` (line 526) -/
  | setCount
  /-- `finally` with the result (lines 528-529) -/
  | release (result : Bool)
deriving DecidableEq

/-- `__periodTime` (line 503) -/
def period : Int := 30

/-- `__threshold` (line 504) -/
def threshold : Int := 100

/-- `-0x7fffffff` (line 502) -/
def long : Int := -0x7fffffff

/-- What is shared, what threads do, and when garbage was collected, the last time first. -/
structure St where
  serviceTime : Int := long
  count : Int := threshold
  /-- `_mutex` -/
  holder : Option Nat := none
  pc : Nat → Pc := fun _ => .out false
  collected : List Int := []

def St.at (s : St) (t : Nat) (p : Pc) : St := { s with pc := fun u => if u = t then p else s.pc u }

/-- One step of thread `t` (lines 512-530) -/
def step (now : Int) (t : Nat) (s : St) : St :=
  match s.pc t with
  | .out _ => s
  | .read f => s.at t (.write f (s.count - 1))
  | .write f v => { s.at t (.testCount f) with count := v }
  | .testCount f => if f then s.at t .acquire else if s.count > 0 then s.at t (.out false) else s.at t .testTime
  | .testTime => if now < s.serviceTime then s.at t (.out false) else s.at t .acquire
  | .acquire => if s.holder.isNone then { s.at t .again with holder := some t } else s.at t (.out false)
  | .again => if now < s.serviceTime then s.at t (.release false) else s.at t .collect
  | .collect => { s.at t .setTime with collected := now :: s.collected }
  | .setTime => { s.at t .setCount with serviceTime := now + period }
  | .setCount => { s.at t (.release true) with count := threshold }
  | .release r => { s.at t (.out r) with holder := none }

/-- What happens. -/
inductive Ev where
  /-- a thread that is not in a call begins one -/
  | call (t : Nat) (force : Bool)
  | step (t : Nat)
  /-- `BgService()` for a new jail: `__new__` gives the same instance, and `__init__` runs again (lines 495-505) -/
  | initTime
  | initCount
deriving DecidableEq

/-- An event at a time -/
def event (now : Int) (s : St) : Ev → St
  | .call t f =>
    match s.pc t with
    | .out _ => s.at t (.read f)
    | _ => s
  | .step t => step now t s
  | .initTime => { s with serviceTime := long }
  | .initCount => { s with count := threshold }

/-- A history -/
def run (s : St) : List (Int × Ev) → St
  | [] => s
  | (now, e) :: es => run (event now s e) es

/-- The call of one thread without others at one time -/
def alone (now : Int) (t : Nat) (force : Bool) (s : St) : St :=
  run s ((now, .call t force) :: List.replicate 10 (now, .step t))

/-- Calls of one thread at these times -/
def calls (t : Nat) (s : St) : List Int → St
  | [] => s
  | now :: ts => calls t (alone now t false s) ts

end Verif.BgService
