import Verif.Model.Server

/-!
# Spec: jails of a configuration
-/

namespace Verif.Spec.Server

open Verif

/-- lists of a configuration -/
def failRegexes (xs : List Setting) : List String := xs.filterMap (fun | .failRegex r => some r | _ => none)
def ignoreRegexes (xs : List Setting) : List String := xs.filterMap (fun | .ignoreRegex r => some r | _ => none)
def ignoredIPs (xs : List Setting) : List String := xs.filterMap (fun | .ignoreIP r => some r | _ => none)
def logPaths (xs : List Setting) : List String := xs.filterMap (fun | .logPath p => some p | _ => none)
def actionNames (xs : List Setting) : List String := xs.filterMap (fun | .action n _ => some n | _ => none)

/-- the values of an option, in order -/
def optionValues (k : String) (xs : List Setting) : List String := xs.filterMap (fun | .option k' v => if k' = k then some v else none | _ => none)

/-- The action a call is made for. -/
def actionOf : Call → Option String
  | .start a => some a
  | .ban a _ => some a
  | .reban a _ => some a
  | .prolong a _ => some a
  | .unban a _ => some a
  | .flush a => some a
  | .stop a => some a
  | .check a => some a
  | .reload a => some a
  | _ => none

/-- A jail runs with the parameters of a configuration. -/
structure Configured (c : JailConf) (j : SJail) : Prop where
  alive : j.alive = true
  idle : j.idle = false
  backend : j.backend = c.backend
  failRegex : j.failRegex = failRegexes c.settings
  ignoreRegex : j.ignoreRegex = ignoreRegexes c.settings
  ignoreIPs : ∀ ip, ip ∈ j.ignoreIPs ↔ ip ∈ ignoredIPs c.settings
  logs : ∀ p, p ∈ j.logs ↔ p ∈ logPaths c.settings
  reloadLogs : j.reloadLogs = none
  reloading : j.actions.reloading = none
  options : ∀ k v, (optionValues k c.settings).getLast? = some v → j.options.get? k = some v

/-- A new jail: no bans, its options are those of the configuration, and all actions of it were started once. -/
structure Fresh (c : JailConf) (j : SJail) : Prop where
  options : ∀ k, j.options.get? k = (optionValues k c.settings).getLast?
  actions : j.actions.actions.keys = actionNames c.settings
  bans : j.actions.bm = BanManager.init
  trace : j.actions.trace = (actionNames c.settings).map Call.start

/-- A jail that stayed: the bans are as before. Options that are not set are as before. Of its actions those remain that are in the configuration
(and can be reloaded), and these got no other call than one reload. -/
structure Kept (c : JailConf) (old j : SJail) : Prop where
  gen : j.gen = old.gen
  bans : j.actions.bm = old.actions.bm
  options : ∀ k, (optionValues k c.settings).getLast? = none → j.options.get? k = old.options.get? k
  actions : j.actions.actions.keys = old.actions.actions.keys.filter (fun n =>
    decide (n ∈ actionNames c.settings) && ((old.actions.actions.get? n).any (fun a => a.hasReload && a.hasClear)))
  trace : ∃ ext, j.actions.trace = old.actions.trace ++ ext ∧
    ∀ n ∈ j.actions.actions.keys, ext.filter (fun x => actionOf x = some n) = [.reload n]

/-- All jails run, no reload is going on, and the database knows which jails run. -/
structure Running (s : Server) : Prop where
  reloadState : s.reloadState = Dict.empty
  alive : ∀ n j, s.jails.get? n = some j → j.alive = true ∧ j.idle = false ∧ j.reloadLogs = none ∧ j.actions.reloading = none
  db : ∀ d, s.db = some d → ∀ n, d.jails.get? n = some true ↔ n ∈ s.jails.keys

/-- What is recorded of the jails of a name that were stopped and deleted. -/
def goneOf (s : Server) (n : String) : List SJail := (s.gone.filter (fun g => g.1 = n)).map (·.2)

/-- A jail was stopped: its actions thread ended (flush, unban and stop of all actions). -/
def Stopped (w : World) (n : String) (old g : SJail) : Prop :=
  g.alive = false ∧ g.gen = old.gen ∧ ∃ r, g.actions = (Actions.shutdown (w.env n old.gen) { old.actions with reloading := r }).2

end Verif.Spec.Server
