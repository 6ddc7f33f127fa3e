import Verif.Model.Filter
import Verif.Spec.FailManager

/-! # Vocabulary for the properties of filters -/

namespace Verif.Spec.Filt

open Verif Verif.IPAddr Verif.FailManager Verif.Spec.Fail

/-! ## Ignoring -/

/-- The address is an own one (and those are to be ignored), listed, or inside a listed network or file. -/
def Listed (env : IgnoreEnv) (g : Ignore) (x : IPAddr) : Prop :=
  (g.ignoreSelf = true ∧ env.selfIPs.mem env.lib env.resolve x = true) ∨
  (∃ y ∈ g.ipSet, x.eq y = true ∧ x.ntoa env.lib = y.ntoa env.lib) ∨
  (∃ n, IgnItem.net n ∈ g.ipList ∧ x.isInNet env.resolve n = true) ∨
  (∃ f, IgnItem.file f ∈ g.ipList ∧ (env.file f).mem env.lib env.resolve x = true)

/-- The address is to be ignored: listed, or the ignore command exits with code 0. -/
def Ignored (env : IgnoreEnv) (g : Ignore) (x : IPAddr) : Prop :=
  Listed env g x ∨ (g.command = true ∧ env.command x = some 0)

/-- One query of the ignore decision: time, world, configuration in force and address. -/
structure Query where
  now : Int
  env : IgnoreEnv
  cfg : Ignore
  ip : IPAddr

/-- The cache after a history of queries, the configuration possibly being another one each time. -/
def cacheAfter (c : Cache Str Bool) : List Query → Cache Str Bool
  | [] => c
  | q :: qs =>
    match (({ q.cfg with cache := some c } : Ignore).inIgnoreIPList q.env q.now q.ip).2.cache with
    | some c => cacheAfter c qs
    | none => c

/-! ## What a line means -/

/-- The date a line is about: supplied by the backend, or written in the line, else the last seen date if that is within the last
minute, else now, unless only dated lines count. -/
def rawDate (s : Filter) (now : Int) (l : Line) : Option Int :=
  if l.given ≠ none ∧ l.given ≠ some 0 then l.given
  else
    match l.detect with
    | .found d => some d
    | other =>
      (s.lastDate.filter (fun d => decide (d ≠ 0 ∧ now - 60 < d))).or
        (if other = .empty ∨ (s.checkFindTime = true ∧ s.inOperation = true) then some now else none)

/-- The time at which failures of the line are counted, `none` if they are not counted at all: dates that deviate by more than a
minute are replaced by now in operation; outdated lines do not count when old logs are read; nothing lies in the future. -/
def lineTime (s : Filter) (now : Int) (l : Line) : Option Int :=
  if s.checkFindTime = false then some ((rawDate s now l).getD now)
  else
    match rawDate s now l with
    | none => none
    | some d =>
      if s.inOperation = true then (if d < now - 60 ∨ now + 60 < d then some now else some (min d now))
      else if d < now - s.findTime then none
      else some (min d now)

/-- The failures of a list that are not ignored, until (and without) the first one for which the decision cannot be made. -/
def kept (env : IgnoreEnv) (now : Int) : Ignore → List Found → List Found
  | _, [] => []
  | g, f :: fs =>
    match (g.inIgnoreIPList env now f.ip).1 with
    | none => []
    | some true => kept env now (g.inIgnoreIPList env now f.ip).2 fs
    | some false => f :: kept env now (g.inIgnoreIPList env now f.ip).2 fs

/-- What a line reports: the address, time and text of each failure that counts. -/
def reports (env : IgnoreEnv) (now : Int) (s : Filter) (l : Line) : List Report :=
  match lineTime s now l, l.find with
  | some t, some fs => (kept env now s.ign fs).map (fun f => ⟨String.ofList (f.ip.ntoa env.lib), t, f.lines⟩)
  | _, _ => []

/-- The ticket of a report. -/
def ticket (r : Report) : Ticket := Ticket.new r.id r.time r.lines

/-- The operations in a history of a failure manager that report failures. -/
def addsOf (ops : List Op) : List Op :=
  ops.filter (fun op => match op with
    | .add _ _ _ => true
    | .addSame _ _ _ => true
    | _ => false)

/-- Only reports, handovers and expiry. -/
def Plain : Op → Prop
  | .add _ _ _ => True
  | .toBan _ => True
  | .cleanup _ => True
  | _ => False

/-- What the observer was told. -/
def told (out : List FEvent) : List Ticket :=
  out.filterMap (fun e => match e with
    | .failureFound t => some t
    | .put _ => none)

/-- What was handed over to be banned. -/
def handedOver (out : List FEvent) : List Ticket :=
  out.filterMap (fun e => match e with
    | .failureFound _ => none
    | .put t => some t)

/-- A history of a filter: time, world and line. -/
abbrev LineStep := Int × IgnoreEnv × Line

/-- The filter after a history. -/
def runLines (s : Filter) (h : List LineStep) : Filter := h.foldl (fun s x => s.processLineAndAdd x.2.1 x.1 x.2.2) s

/-- Everything a history reports. -/
def reportsOf (s : Filter) : List LineStep → List Report
  | [] => []
  | x :: h => reports x.2.1 x.1 s x.2.2 ++ reportsOf (s.processLineAndAdd x.2.1 x.1 x.2.2) h

end Verif.Spec.Filt
