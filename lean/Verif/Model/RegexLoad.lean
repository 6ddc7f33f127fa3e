import Verif.Model.Reader

/-!
# What `fail2ban-regex` tests with — `fail2ban/client/fail2banregex.py` 244-309, 330-487, 764-778

Simplifications: whether `REGEX` is a jail or a filter and what was read from its files (339-371, 376-435) is given by a function `Source`; the commands are those of
`JailReader.convert` and `FilterReader.convert` (`Model/Reader`). That expressions and date patterns are accepted is decided outside. What is printed is left out, and so are
`--usedns`, `--timezone`, `--raw` and the like, which are only passed on to the filter.
-/

namespace Verif.RegexLoad

open Reader (Str Val Cmd arg)

/-- Result of a call: a value, `return False` or an exception that `start` and `exec_command_line` handle (the exit code is 255), or an exception that is not handled -/
inductive Res (α : Type) where
  | ok (a : α)
  | stop
  | raise
deriving DecidableEq

def Res.bind {α β : Type} : Res α → (α → Res β) → Res β
  | .ok a, f => f a
  | .stop, _ => .stop
  | .raise, _ => .raise

/-- What is decided outside. -/
structure Env where
  /-- `int(text)`; `none` is a ValueError -/
  toInt : Str → Option Int
  /-- `shlex.split(text)`; `none` is an exception -/
  shlex : Str → Option (List Str)
  /-- `FailRegex(value, prefRegex, multiline)` raises no RegexException (failregex.py 414-431) -/
  failOk : Option Str → Bool → Str → Bool
  /-- the same of `Regex(value)` -/
  regexOk : Str → Bool
  /-- `DateDetector.appendTemplate` of the lines of a pattern (filter.py 302-313); `stop` is a ValueError, `raise` is another exception -/
  date : Str → Res Unit

/-- Options of the command line -/
structure Options where
  /-- `--maxlines`, default 0 (fail2banregex.py 151) -/
  maxlines : Int := 0
  /-- `--datepattern` -/
  datepattern : Option Str := none
  /-- `--journalmatch` -/
  journalmatch : Option Str := none

/-- The filter (filter.py 65-80), as far as it is set here -/
structure Filter where
  pref : Option Str := none
  fails : List Str := []
  ignores : List Str := []
  /-- `__lineBufferSize` -/
  maxlines : Int := 1
  /-- pattern of `dateDetector`; `none` are the default detectors -/
  date : Option Str := none
deriving DecidableEq

/-- `Fail2banRegex` (fail2banregex.py 244-286) -/
structure Tool where
  flt : Filter := {}
  /-- `_maxlines_set` -/
  maxSet : Bool := false
  /-- `_datepattern_set` -/
  dateSet : Bool := false
  /-- `_journalmatch` -/
  journal : Option (List (Option Val)) := none
  /-- `_failregex` -/
  fails : List Str := []
  /-- `_ignoreregex` -/
  ignores : List Str := []
deriving DecidableEq

/-- `self._filter.setMaxLines(value)` (filter.py 374-378) -/
def maxTo (t : Tool) (i : Int) : Res Tool := if i ≤ 0 then .stop else .ok { t with flt := { t.flt with maxlines := i }, maxSet := true }

/-- `int(v)`; `none` (no value) is a TypeError -/
def number (env : Env) : Option Val → Res Int
  | some (.int i) => .ok i
  | some (.bool b) => .ok (if b then 1 else 0)
  | some (.str s) => match env.toInt s with
    | some i => .ok i
    | none => .stop
  | none => .raise

/-- `setMaxLines(v)` (fail2banregex.py 302-306) -/
def setMaxLines (env : Env) (v : Option Val) (t : Tool) : Res Tool := if t.maxSet then .ok t else (number env v).bind (maxTo t)

/-- `setDatePattern(pattern)` (fail2banregex.py 294-300, filter.py 302-313) -/
def setDatePattern (env : Env) (v : Option Val) (t : Tool) : Res Tool :=
  if t.dateSet then .ok t
  else match v with
    | none => .ok { t with flt := { t.flt with date := none }, dateSet := true }
    | some (.str s) => (env.date s).bind (fun _ => .ok { t with flt := { t.flt with date := some s }, dateSet := true })
    | some _ => .raise

/-- `self._filter.prefRegex = value` (filter.py 172-177) -/
def setPref (env : Env) (v : Option Val) (t : Tool) : Res Tool :=
  if Reader.falsy (some v) then .ok { t with flt := { t.flt with pref := none } }
  else match v with
    | some (.str s) => if env.regexOk s then .ok { t with flt := { t.flt with pref := some s } } else .stop
    | _ => .raise

/-- `Fail2banRegex(opts)` (fail2banregex.py 246-277); every exception ends the program with 255 (880-887) -/
def create (env : Env) (o : Options) : Res Tool :=
  let t : Res Tool := if o.maxlines = 0 then .ok {} else maxTo {} o.maxlines
  match t with
  | .ok t =>
    let t : Res Tool := match o.journalmatch with
      | none => .ok t
      | some j => match env.shlex j with
        | some l => .ok { t with journal := some (l.map arg) }
        | none => .stop
    match t with
    | .ok t =>
      match o.datepattern with
      | none => .ok t
      | some [] => .ok t
      | some p => match setDatePattern env (arg p) t with
        | .ok t => .ok t
        | _ => .stop
    | _ => .stop
  | _ => .stop

/-- A loop that may be left by an exception -/
def each {α σ : Type} (f : α → σ → Res σ) : List α → σ → Res σ
  | [], s => .ok s
  | a :: l, s => (f a s).bind (each f l)

/-- State of the loop over the commands: tool and `regex_values` -/
structure Loop where
  tool : Tool
  fails : List (Option Val) := []
  ignores : List (Option Val) := []

/-- One option (fail2banregex.py 446-470); `own` is whether `--journalmatch` was given -/
def option (env : Env) (own : Bool) (key : Str) (vals : List (Option Val)) (s : Loop) : Res Loop :=
  if key = "prefregex".toList then (each (setPref env) vals s.tool).bind (fun t => .ok { s with tool := t })
  else if key = "addfailregex".toList then .ok { s with fails := s.fails ++ vals }
  else if key = "addignoreregex".toList then .ok { s with ignores := s.ignores ++ vals }
  else if key = "maxlines".toList then (each (setMaxLines env) vals s.tool).bind (fun t => .ok { s with tool := t })
  else if key = "datepattern".toList then (each (setDatePattern env) vals s.tool).bind (fun t => .ok { s with tool := t })
  else if key = "addjournalmatch".toList then .ok (if own then s else { s with tool := { s.tool with journal := some vals } })
  else .ok s

/-- One command (fail2banregex.py 439-474); those of actions are `set` and `multi-set` commands of other options -/
def command (env : Env) (own : Bool) : Cmd → Loop → Res Loop
  | .multiSet _ key vals, s => option env own key.toList (vals.map arg) s
  | .set _ (some (.str key) :: vals), s => option env own key vals s
  | _, s => .ok s

/-- `self._filter.addFailRegex(value)` (filter.py 186-194); the compiled expression is its text -/
def addFail (env : Env) (v : Option Val) (f : Filter) : Res Filter :=
  match v with
  | some (.str r) => if env.failOk f.pref (decide (f.maxlines > 1)) r then .ok { f with fails := f.fails ++ [r] } else .stop
  | _ => .raise

/-- `self._filter.addIgnoreRegex(value)` (filter.py 223-229) -/
def addIgnore (env : Env) (v : Option Val) (f : Filter) : Res Filter :=
  match v with
  | some (.str r) => if env.regexOk r then .ok { f with ignores := f.ignores ++ [r] } else .stop
  | _ => .raise

/-- texts of values -/
def texts (l : List (Option Val)) : List Str :=
  l.filterMap (fun v => match v with
    | some (.str r) => some r
    | _ => none)

/-- `setattr` and the loop with `addFailRegex` (fail2banregex.py 480-486); no expressions is no key of `regex_values`. The failure expressions are added first, also if
the first command was one for ignored expressions. -/
def install (env : Env) (fails ignores : List (Option Val)) (t : Tool) : Res Tool :=
  (each (addFail env) fails t.flt).bind (fun f => (each (addIgnore env) ignores f).bind (fun f =>
    .ok { t with flt := f, fails := if fails.isEmpty then t.fails else texts fails, ignores := if ignores.isEmpty then t.ignores else texts ignores }))

/-- What `REGEX` names (fail2banregex.py 339-371, 376-435) -/
inductive Source where
  /-- neither jail nor filter -/
  | line
  /-- `readercommands` -/
  | commands (l : List Cmd)
  /-- a wrong name, or the files could not be read: `return False` -/
  | failed
  /-- an exception of the readers -/
  | raises

/-- `readRegex(value, 'fail')` (fail2banregex.py 330-487) -/
def readFail (env : Env) (own : Bool) (src : Source) (value : Str) (t : Tool) : Res Tool :=
  match src with
  | .failed => .stop
  | .raises => .raise
  | .commands (c :: l) => (each (command env own) (c :: l) { tool := t }).bind (fun s => install env s.fails s.ignores s.tool)
  | _ => install env [arg value] [] t

/-- `readRegex(value, 'ignore')`: no jail or filter is looked for, the expressions of the filter are cleared (fail2banregex.py 372-374) -/
def readIgnore (env : Env) (value : Str) (t : Tool) : Res Tool :=
  install env [] [arg value] (if t.ignores.isEmpty then t else { t with flt := { t.flt with ignores := [] } })

/-- `exec_command_line` (fail2banregex.py 847-853, 880-890) and `start` (764-778): arguments `LOG REGEX [IGNOREREGEX]`; with `ok` the lines are tested with this filter -/
def load (env : Env) (source : Str → Source) (o : Options) : List Str → Res Tool
  | [_, regex] => (create env o).bind (readFail env o.journalmatch.isSome (source regex) regex)
  | [_, regex, ignore] => ((create env o).bind (readFail env o.journalmatch.isSome (source regex) regex)).bind (readIgnore env ignore)
  | _ => .stop

end Verif.RegexLoad
