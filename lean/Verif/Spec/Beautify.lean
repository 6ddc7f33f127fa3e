import Verif.Model.Beautify

/-!
# What the client should show

Independent of how the messages are put together.
-/

namespace Verif.Beautify

/-- Parts of a text between characters `c` -/
def split (c : Char) : Text → List Text
  | [] => [[]]
  | x :: t => if x = c then [] :: split c t else
    match split c t with
    | [] => [[x]]
    | a :: l => (x :: a) :: l

/-- The sign of item number `i` of `n` -/
def sign (i n : Nat) : Text := if i + 1 = n then "`- ".toList else "|- ".toList

/-- The first words of commands whose answers are shown in a way of their own, whatever follows -/
def ownWords : List Text := ["ping", "version", "start", "stop", "add", "flushlogs", "echo", "status", "stats", "statistics"].map String.toList

/-- Settings of the server: the second word -/
def serverWords : List Text := ["syslogsocket", "logtarget", "loglevel", "dbfile", "dbpurgeage"].map String.toList

/-- Settings of a jail: the third word -/
def jailWords : List Text := ["logpath", "addlogpath", "dellogpath", "logencoding", "journalmatch", "addjournalmatch", "deljournalmatch", "datepattern",
  "ignoreip", "addignoreip", "delignoreip", "failregex", "addfailregex", "delfailregex", "ignoreregex", "addignoreregex", "delignoreregex",
  "actions", "actionproperties", "actionmethods"].map String.toList

def paths : List Text := ["logpath", "addlogpath", "dellogpath"].map String.toList
def ignored : List Text := ["ignoreip", "addignoreip", "delignoreip"].map String.toList
def regexes : List Text := ["failregex", "addfailregex", "delfailregex", "ignoreregex", "addignoreregex", "delignoreregex"].map String.toList

/-- Answer with a list of texts -/
def texts (l : List Text) : R := .list (l.map .str)

/-- A value of the status: a text, a number or a list of texts -/
inductive SVal where
  | text (t : Text)
  | num (n : Nat)
  | list (l : List Text)

def SVal.r : SVal → R
  | .text t => .str t
  | .num n => .int n
  | .list l => texts l

/-- How it is shown -/
def SVal.shown : SVal → Text
  | .text t => t
  | .num n => (toString n).toList
  | .list l => List.intercalate [' '] l

/-- Status of a jail as the server answers it -/
abbrev Status := List (Text × List (Text × SVal))

def Status.r (s : Status) : R := .list (s.map (fun g => .tup [.str g.1, .list (g.2.map (fun p => .tup [.str p.1, p.2.r]))]))

/-- Lines of a group: number `i` of `n` -/
def groupLines (pref : Text) (n : Nat) (g : (Text × List (Text × SVal)) × Nat) : List Text :=
  (pref ++ sign g.2 n ++ g.1.1) ::
    g.1.2.zipIdx.map (fun p => pref ++ (if g.2 + 1 = n then "   ".toList else "|  ".toList) ++ sign p.2 g.1.2.length ++ p.1.1 ++ ":\t".toList ++ p.1.2.shown)

/-- Lines of the status of a jail -/
def statusLines (pref : Text) (s : Status) : List Text := s.zipIdx.flatMap (groupLines pref s.length)

/-- A vertical line of the table stands at place `p` of the line -/
def Bar (utf : Bool) (t : Text) (p : Nat) : Prop :=
  ∃ c, t[p]? = some c ∧ c ∈ (if utf then ['║', '╟', '╬', '╩', '╫'] else ['|', 'x', '-'])

end Verif.Beautify
