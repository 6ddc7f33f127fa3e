/-!
# Warnings once per day — `fail2ban/server/filter.py` (623-630)

Warnings on wrong times of log lines (687, 702, 912) have a name each. Times are integers (seconds); the clock may go back.
-/

namespace Verif.WarnOnce

/-- A message: format and arguments. -/
structure Msg where
  fmt : String
  args : List String
deriving DecidableEq

/-- A call of `_logWarnOnce(nextLTM, *args)` at a time; at least one message. -/
structure Call where
  kind : String
  time : Int
  first : Msg
  more : List Msg

/-- What is logged. -/
inductive Out where
  | warnings (l : List Msg)
  /-- at level 7 -/
  | low (m : Msg)
  | silent
deriving DecidableEq

/-- Attributes with the time of the next warning, 0 if there is none (line 625). -/
abbrev Next := String → Int

/-- `logSys.warning('[%s] ' + args[0], self.jailName, *args[1:])` (line 630) -/
def named (jail : String) (m : Msg) : Msg := ⟨"[%s] " ++ m.fmt, jail :: m.args⟩

/-- `_logWarnOnce` (lines 623-630); `level` is the effective level of the logger. Both reads of the clock give the same time. -/
def warn (jail : String) (level : Nat) (s : Next) (c : Call) : Next × Out :=
  if c.time < s c.kind then (s, if level ≤ 7 then .low c.first else .silent)
  else (fun k => if k = c.kind then c.time + 24 * 60 * 60 else s k, .warnings ((c.first :: c.more).map (named jail)))

/-- Calls one after the other. -/
def run (jail : String) (level : Nat) : Next → List Call → List Out
  | _, [] => []
  | s, c :: cs => (warn jail level s c).2 :: run jail level (warn jail level s c).1 cs

end Verif.WarnOnce
