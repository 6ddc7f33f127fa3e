import Verif.Model.CmdLine

/-!
# What a command line means, independently of how it is read
-/

namespace Verif.CmdLine.Spec

open Verif.CmdLine

/-- Letters without a value -/
def flags : List Char := "hxfbdtviqV".toList

/-- Letters with a value -/
def valued : List Char := "csp".toList

def longFlags : List Text := ["test", "async", "help", "version", "dp", "dump-pretty"].map String.toList

def longValued : List Text :=
  ["loglevel", "logtarget", "syslogsocket", "conf", "pidfile", "pname", "socket", "timeout", "str2sec"].map String.toList

def longNames : List Text := longFlags ++ longValued

/-- `n` stands for the long option `full`: it is its name, or the beginning of its name and of no other -/
def Names (n full : Text) : Prop :=
  full ∈ longNames ∧ (n = full ∨ (n ∉ longNames ∧ n <+: full ∧ ∀ m ∈ longNames, n <+: m → m = full))

/-- Options of a word of letters -/
def letters (l : List Char) : List Opt := l.map (fun c => (['-', c], []))

/-- One or two words that belong together and the options they mean -/
inductive Word : List Text → List Opt → Prop where
  /-- `-vvt` -/
  | flags (l : List Char) : l ≠ [] → (∀ c ∈ l, c ∈ flags) → Word ['-' :: l] (letters l)
  /-- `-vc/etc/f2b` -/
  | joined (l : List Char) (c : Char) (v : Text) : (∀ c ∈ l, c ∈ Spec.flags) → c ∈ valued → v ≠ [] →
      Word ['-' :: (l ++ c :: v)] (letters l ++ [(['-', c], v)])
  /-- `-vc /etc/f2b` -/
  | apart (l : List Char) (c : Char) (v : Text) : (∀ c ∈ l, c ∈ Spec.flags) → c ∈ valued →
      Word ['-' :: (l ++ [c]), v] (letters l ++ [(['-', c], v)])
  /-- `--test` -/
  | long (n full : Text) : Names n full → full ∈ longFlags → Word ['-' :: '-' :: n] [('-' :: '-' :: full, [])]
  /-- `--conf=/etc/f2b` -/
  | longEq (n full v : Text) : Names n full → full ∈ longValued → Word ['-' :: '-' :: (n ++ '=' :: v)] [('-' :: '-' :: full, v)]
  /-- `--conf /etc/f2b` -/
  | longApart (n full v : Text) : Names n full → full ∈ longValued → Word ['-' :: '-' :: n, v] [('-' :: '-' :: full, v)]

/-- Words that mean the options -/
inductive Spell : List Text → List Opt → Prop where
  | nil : Spell [] []
  | cons {w ws : List Text} {o os : List Opt} : Word w o → Spell ws os → Spell (w ++ ws) (o ++ os)

/-- `t` are the words after the options; the command consists of the words `r` -/
def Rest (t r : List Text) : Prop :=
  t = ['-', '-'] :: r ∨ (t = r ∧ ∀ w ∈ r.head?, w = ['-'] ∨ w.head? ≠ some '-')

/-! ## Effect of options -/

/-- The value of the last of these options -/
def lastOf (names : List Text) (os : List Opt) : Option Text := ((os.filter (fun o => o.1 ∈ names)).getLast?).map (·.2)

def given (names : List String) (os : List Opt) : Bool := os.any (fun o => o.1 ∈ names.map String.toList)

def count (name : String) (os : List Opt) : Nat := (os.filter (fun o => o.1 = name.toList)).length

/-- The last of these options -/
def lastName (names : List String) (os : List Opt) : Option Text :=
  ((os.filter (fun o => o.1 ∈ names.map String.toList)).getLast?).map (·.1)

def names : Param → List Text
  | .socket => ["-s".toList, "--socket".toList]
  | .pidfile => ["-p".toList, "--pidfile".toList]
  | .loglevel => ["--loglevel".toList]
  | .logtarget => ["--logtarget".toList]
  | .syslogsocket => ["--syslogsocket".toList]
  | .pname => ["--pname".toList]

/-- The configuration after the options -/
def result (secs : Text → Option Int) (c : Conf) (os : List Opt) : Conf where
  async := c.async || given ["--async"] os
  conf := (lastOf ["-c".toList, "--conf".toList] os).getD c.conf
  force := c.force || given ["-x"] os
  background := ((lastName ["-b", "-f"] os).map (fun n => decide (n = "-b".toList))).getD c.background
  verbose := c.verbose + (count "-v" os : Int) - (count "-q" os : Int)
  timeout := ((lastOf ["--timeout".toList] os).bind secs).getD c.timeout
  dump := ((lastName ["-d", "--dp", "--dump-pretty"] os).map (fun n => if n = "-d".toList then Dump.plain else Dump.pretty)).getD c.dump
  test := c.test || given ["-t", "--test"] os
  interactive := c.interactive || given ["-i"] os
  cleanConfOnly := c.cleanConfOnly || given ["-t", "--test"] os
  params := fun p => (lastOf (names p) os).or (c.params p)

/-- Options that end the program -/
def Stops (o : Opt) : Prop := o.1 ∈ ["--str2sec", "-h", "--help", "-V", "--version"].map String.toList

/-- Options that only set something, and can be understood -/
def Clean (secs : Text → Option Int) (o : Opt) : Prop := ¬ Stops o ∧ (o.1 = "--timeout".toList → (secs o.2).isSome = true)

/-- What is shown by an option that ends the program; `none`: it cannot be understood -/
def shown (secs : Text → Option Int) (o : Opt) : Option Out :=
  if o.1 = "--str2sec".toList then (secs o.2).map Out.seconds
  else if o.1 ∈ ["-h".toList, "--help".toList] then some .usage
  else if o.1 = "-V".toList then some (.version true)
  else if o.1 = "--version".toList then some (.version false)
  else none

/-! ## Outcome -/

/-- Parameters that the configuration provides if they are not given -/
def needed (p : Param) : Prop := p ≠ .pname

instance (p : Param) : Decidable (needed p) := inferInstanceAs (Decidable (_ ≠ _))

/-- The value that is used: as given, else that of the configuration -/
def value (e : Env) (c : Conf) (p : Param) : Option Text :=
  (c.params p).or (if needed p then (e.early c.conf).bind (fun v => v p) else none)

/-- The configuration has to be read and cannot be -/
def Unread (e : Env) (c : Conf) : Prop := e.early c.conf = none ∧ ∃ p, needed p ∧ c.params p = none

/-- Enough is known, and the log level is one -/
def Usable (e : Env) (c : Conf) : Prop := ¬ Unread e c ∧ (∃ l, value e c .loglevel = some l ∧ e.level l = true) ∧ (value e c .logtarget).isSome = true

/-- What a dump shows -/
def dumpOut (e : Env) (c : Conf) : List Out :=
  match c.dump, (e.read c).2 with
  | .no, _ => []
  | _, false => [.streamFailed]
  | .plain, true => [.dumped c.conf false]
  | .pretty, true => [.dumped c.conf true]

end Verif.CmdLine.Spec
