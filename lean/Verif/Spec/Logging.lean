import Verif.Model.Logging

/-!
# Log of the server — what is expected
-/

namespace Verif.LoggingSpec

open Verif.Logging

/-- A name in any case -/
def Named (n : Str) (r : String) : Prop := n.map Char.toUpper = r.toList

instance (n : Str) (r : String) : Decidable (Named n r) := inferInstanceAs (Decidable (_ = _))

/-- Texts for true -/
def Yes (s : Str) : Prop := s.map Char.toLower ∈ ["1".toList, "on".toList, "true".toList, "yes".toList]

/-- A decimal number -/
inductive IsNumber : Str → Nat → Prop
  | one (c : Char) : c.isDigit = true → IsNumber [c] (c.toNat - '0'.toNat)
  | more (s : Str) (n : Nat) (c : Char) : IsNumber s n → c.isDigit = true → IsNumber (s ++ [c]) (10 * n + (c.toNat - '0'.toNat))

/-- Names of levels -/
def levels : List (String × Int) :=
  [("CRITICAL", 50), ("FATAL", 50), ("ERROR", 40), ("WARNING", 30), ("WARN", 30), ("NOTICE", 25), ("INFO", 20), ("MSG", 18), ("DEBUG", 10),
    ("TRACEDEBUG", 7), ("HEAVYDEBUG", 5), ("NOTSET", 0)]

/-- The level of a text in upper case: a number or a name -/
inductive LevelIs (v : Str) : Int → Prop
  | number (n : Nat) : IsNumber v n → LevelIs v n
  | name (r : String) (l : Int) : (r, l) ∈ levels → v = r.toList → LevelIs v l

/-- The socket of syslog: the one of the system for `auto` -/
def SocketIs (w : World) (socket : Option Str) (p : Str) : Prop :=
  (socket = some "auto".toList ∧ w.system = some p) ∨ (socket = some p ∧ p ≠ "auto".toList)

/-- The facility: the one given if there is such, otherwise `DAEMON` -/
def FacilityIs (w : World) (t : Target) (f : Str) : Prop :=
  (∃ g, t.facility = some g ∧ f = g.map Char.toUpper ∧ w.facility f = true) ∨
  (f = "DAEMON".toList ∧ ∀ g, t.facility = some g → w.facility (g.map Char.toUpper) = false)

/-- Names that are no files -/
def Reserved (n : Str) : Prop := Named n "SYSTEMD-JOURNAL" ∨ Named n "SYSLOG" ∨ Named n "STDOUT" ∨ Named n "SYSOUT" ∨ Named n "STDERR"

/-- Where the log goes with a target (and which file is opened) -/
inductive Goes (w : World) (socket : Option Str) (t : Target) : Dest → Option Nat → Prop
  | journal : Named t.name "SYSTEMD-JOURNAL" → w.journal = true → Goes w socket t .journal none
  | syslog (p f) : Named t.name "SYSLOG" → SocketIs w socket p → w.isSocket p = true → w.connects p = true → FacilityIs w t f →
      Goes w socket t (.syslog p f) none
  | stdout : Named t.name "STDOUT" ∨ Named t.name "SYSOUT" → Goes w socket t .stdout none
  | stderr : Named t.name "STDERR" → Goes w socket t .stderr none
  | file (n) : ¬Reserved t.name → w.file t.name = some n → Goes w socket t (.file t.name) (some n)

/-- What the name of the target says about the destination -/
def IsDestOf (n : Str) : Dest → Prop
  | .journal => Named n "SYSTEMD-JOURNAL"
  | .syslog .. => Named n "SYSLOG"
  | .stdout => Named n "STDOUT" ∨ Named n "SYSOUT"
  | .stderr => Named n "STDERR"
  | .file p => p = n ∧ ¬Reserved n

/-- The format: the one given; otherwise with time unless switched off (default: not for syslog), and padding likewise -/
def FormatIs (t : Target) (verbose : Option Int) (f : Option Fmt) : Prop :=
  (t.name = "SYSTEMD-JOURNAL".toList → f = none) ∧
  (t.name ≠ "SYSTEMD-JOURNAL".toList → (∀ c, t.format = some c → c ≠ [] → f = some (.custom c)) ∧
    ((∀ c, t.format = some c → c = []) → ∃ k a p, f = some (.std k a p) ∧
      (a = true ↔ (∃ v, t.datetime = some v ∧ Yes v) ∨ (t.datetime = none ∧ ¬Named t.name "SYSLOG" ∧ ¬Named t.name "SYSOUT")) ∧
      (p = true ↔ (∃ v, t.padding = some v ∧ Yes v) ∨ (t.padding = none ∧ ¬Named t.name "SYSLOG")) ∧
      (∀ v, verbose = some v → 2 < v → k = v - 1) ∧ ((∀ v, verbose = some v → v ≤ 2) → k = 0)))

/-- The verbosity used: the one given; otherwise by the level, if it is at most `DEBUG` -/
def VerboseIs (w : World) (s : State) (v : Option Int) : Prop :=
  (∀ x, s.verbose = some x → v = some x) ∧
  (s.verbose = none → (10 < (if s.real = 0 then w.root else s.real) → v = none) ∧
    ((if s.real = 0 then w.root else s.real) ≤ 10 → v = some (11 - (if s.real = 0 then w.root else s.real))))

end Verif.LoggingSpec
