import Verif.Model.General
import Verif.Spec.Reader

/-! # What the settings of the server are -/

namespace Verif.GeneralSpec

open Verif Verif.Reader Verif.General

/-- The settings, in the order in which they are to be made: logging before everything that may go wrong, the database before what is set in it. -/
def names : List String := ["thread", "syslogsocket", "loglevel", "logtarget", "allowipv6", "dbfile", "dbmaxmatches", "dbpurgeage"]

/-- Type and default of a setting in `[Definition]`. -/
inductive IsSetting : String → Kind → Option Val → Prop where
  | loglevel : IsSetting "loglevel" .string (some (.str "INFO".toList))
  | logtarget : IsSetting "logtarget" .string (some (.str "STDERR".toList))
  | syslogsocket : IsSetting "syslogsocket" .string (some (.str "auto".toList))
  | allowipv6 : IsSetting "allowipv6" .string (some (.str "auto".toList))
  | dbfile : IsSetting "dbfile" .string (some (.str "/var/lib/fail2ban/fail2ban.sqlite3".toList))
  | dbmaxmatches : IsSetting "dbmaxmatches" .int none
  | dbpurgeage : IsSetting "dbpurgeage" .string (some (.str "1d".toList))

/-- The value of a setting: that of the command line, else what is read from `[Definition]`; `thread` is what is read from `[Thread]`. -/
inductive Value (env : Reader.Env) (src : Src) (cmdline : Opts) : String → Option GVal → Prop where
  | given (k : String) (t : Kind) (d v : Option Val) : IsSetting k t d → cmdline.get? k = some v → Value env src cmdline k (some (.val v))
  | read (k : String) (t : Kind) (d : Option Val) (x : Option (Option Val)) : IsSetting k t d → cmdline.get? k = none →
      ReaderSpec.Reads env src.get (fun _ => false) true ⟨k, t, d⟩ x → Value env src cmdline k (x.map .val)
  | noThread : src.thread = none → Value env src cmdline "thread" none
  | noStack (get : String → Got) : src.thread = some get → ReaderSpec.Reads env get (fun _ => false) true ⟨"stacksize", .int, none⟩ none → Value env src cmdline "thread" none
  | stack (get : String → Got) (v : Option Val) (o : Opts) : src.thread = some get →
      ReaderSpec.Reads env get (fun _ => false) true ⟨"stacksize", .int, none⟩ (some v) → o.items = [("stacksize", v)] → Value env src cmdline "thread" (some (.thread o))

/-- `int(v)` is `i`. -/
inductive IsInt (e : SrvEnv) : Option Val → Int → Prop where
  | int (i : Int) : IsInt e (some (.int i)) i
  | text (s : Str) (i : Int) : e.toInt s = some i → IsInt e (some (.str s)) i
  | yes : IsInt e (some (.bool true)) 1
  | no : IsInt e (some (.bool false)) 0

/-- A command that is not for the database is accepted. -/
inductive Accepted (e : SrvEnv) : String → GVal → Prop where
  | thread (o : Opts) : (∀ k v, (k, v) ∈ o.items → k = "stacksize" ∧ ∃ i, IsInt e v i ∧ e.stack (i * 1024) = true) → Accepted e "thread" (.thread o)
  | other (k : String) (v : GVal) : k ≠ "thread" → e.accepts k v = true → Accepted e k v

/-- Number of matches kept: 10 if it is not set. -/
inductive KeptMatches (e : SrvEnv) : Option GVal → Int → Prop where
  | default : KeptMatches e none 10
  | set (v : Option Val) (i : Int) : IsInt e v i → KeptMatches e (some (.val v)) i

/-- Seconds bans are kept: a day if it is not set. -/
inductive Age (e : SrvEnv) : Option GVal → Int → Prop where
  | default : Age e none 86400
  | text (s : Str) (i : Int) : e.seconds s = some i → Age e (some (.val (some (.str s)))) i
  | int (i : Int) : Age e (some (.val (some (.int i)))) i
  | yes : Age e (some (.val (some (.bool true)))) 1
  | no : Age e (some (.val (some (.bool false)))) 0

/-- The database of a server: none if it is called `none`. -/
inductive Opened (e : SrvEnv) (file : Str) (max age : Option GVal) : Option General.Db → Prop where
  | off : e.lower file = "none".toList → Opened e file max age none
  | on (m a : Int) : e.lower file ≠ "none".toList → e.opens file = true → KeptMatches e max m → Age e age a → Opened e file max age (some ⟨file, m, a⟩)

/-- Sections of jails: all but `INCLUDES`. -/
def isJail (s : String × Sec) : Prop := s.1 ≠ "INCLUDES"

end Verif.GeneralSpec
