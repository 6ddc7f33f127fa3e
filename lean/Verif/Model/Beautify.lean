/-!
# Messages of the client — `fail2ban/client/beautifier.py` (39-272)

Answers of the server are Python values `R`. `str`, `repr` of values other than text and whole numbers and `logging.getLevelName` are parameters.

Simplifications: what is shown after an exception (`repr` of the unfinished message and of the answer, 251-255) is not described (`failed`).
The logger is left out. Lines 260-272 (`beautifyError`) are in `errorText`.
-/

namespace Verif.Beautify

abbrev Text := List Char

/-- Python values -/
inductive R where
  | none
  | str (t : Text)
  | int (i : Int)
  | list (l : List R)
  | tup (l : List R)
  | dict (d : List (Text × R))
  | other (n : Nat)

structure Env where
  /-- `str(x)` -/
  str : R → Text
  /-- `repr(x)` -/
  repr : R → Text
  /-- `logging.getLevelName(n)` -/
  level : Int → Text
  /-- `encUtf` (41-44) -/
  utf : Bool

inductive Shown where
  /-- the answer itself -/
  | raw (r : R)
  | text (t : Text)
  /-- an exception, texts of message and answer (251-255) -/
  | failed

/-- `str(x)` and `%s` -/
def Env.show (e : Env) : R → Text
  | .str t => t
  | .int i => i.repr.toList
  | r => e.str r

/-- `text + x` -/
def asStr : R → Option Text
  | .str t => some t
  | _ => none

/-- Items by number: lists, tuples, texts -/
def seq : R → Option (List R)
  | .list l => some l
  | .tup l => some l
  | .str t => some (t.map (fun c => .str [c]))
  | _ => none

/-- `for x in r` -/
def items : R → Option (List R)
  | .dict d => some (d.map (fun p => .str p.1))
  | r => seq r

/-- `len(r)` -/
def len (r : R) : Option Nat := (items r).map List.length

/-- `r[n]` -/
def idx (r : R) (n : Nat) : Option R := (seq r).bind (fun l => l[n]?)

/-- All results, or none if one raised -/
def allSome {α} : List (Option α) → Option (List α)
  | [] => some []
  | some a :: l => (allSome l).map (a :: ·)
  | none :: _ => none

/-- `sep.join(l)` of texts -/
def joinT (sep : Text) : List Text → Text
  | [] => []
  | [a] => a
  | a :: l => a ++ sep ++ joinT sep l

/-- `sep.join(r)` -/
def join (sep : Text) (r : R) : Option Text := (items r).bind (fun l => (allSome (l.map asStr)).map (joinT sep))

/-- `text.join(map(str, x)) if isinstance(x, list) else x`, with `%s` -/
def value (e : Env) : R → Text
  | .list l => joinT [' '] (l.map e.show)
  | r => e.show r

/-! ## Status (74-107) -/

def branch (last : Bool) : Text := if last then ['`', '-'] else ['|', '-']

/-- A line `name:<tab>value` (83-85, 96-98) -/
def entry (e : Env) (pref : Text) (last : Bool) (r : R) : Option Text :=
  match idx r 0, idx r 1 with
  | some k, some v => some (pref ++ branch last ++ ' ' :: e.show k ++ ':' :: '\t' :: value e v)
  | _, _ => none

/-- The inner loop of `jail_stat` (82-85) -/
def entries (e : Env) (pref : Text) : List R → Option (List Text)
  | [] => some []
  | r :: l => match entry e pref l.isEmpty r, entries e pref l with
    | some a, some b => some (a :: b)
    | _, _ => none

/-- `jail_stat(response, pref)` (76-85) -/
def jailStat (e : Env) (pref : Text) : List R → Option (List Text)
  | [] => some []
  | r :: l =>
    match idx r 0, (idx r 1).bind items with
    | some k, some subs =>
      match entries e (pref ++ if l.isEmpty then [' ', ' ', ' '] else ['|', ' ', ' ']) subs, jailStat e pref l with
      | some a, some b => some ((pref ++ branch l.isEmpty ++ ' ' :: e.show k) :: (a ++ b))
      | _, _ => none
    | _, _ => none

/-- The loop over all jails (101-106) -/
def allJails (e : Env) : List (Text × R) → Option (List Text)
  | [] => some []
  | (n, j) :: d =>
    match (items j).bind (jailStat e (if d.isEmpty then "      ".toList else "   |  ".toList)), allJails e d with
    | some a, some b => some (("   ".toList ++ branch d.isEmpty ++ " Jail: ".toList ++ n) :: (a ++ b))
    | _, _ => none

/-- The loop of `status` (95-98) -/
def topEntries (e : Env) (more : Bool) : List R → Option (List Text)
  | [] => some []
  | r :: l => match entry e [] (!more && l.isEmpty) r, topEntries e more l with
    | some a, some b => some (a :: b)
    | _, _ => none

/-- `if x` -/
def truthy : R → Bool
  | .none => false
  | .str t => !t.isEmpty
  | .int i => i != 0
  | .list l => !l.isEmpty
  | .tup l => !l.isEmpty
  | .dict d => !d.isEmpty
  | .other _ => true

/-- `status` and `status --all` (89-107) -/
def statusAll (e : Env) (all : Bool) (r : R) : Option (List Text) :=
  if all then
    match seq r with
    | some l => match l.getLast? with
      | some js =>
        match topEntries e (truthy js) l.dropLast with
        | some top =>
          if truthy js then
            match js with
            | .dict d => (allJails e d).map (fun b => "Status".toList :: (top ++ "`- Status for the jails:".toList :: b))
            | _ => none
          else some ("Status".toList :: top)
        | none => none
      | none => none
    | none => none
  else match items r with
    | some l => (topEntries e false l).map ("Status".toList :: ·)
    | none => none

/-! ## Statistics (108-158) -/

/-- `"%-ns" % t` -/
def padR (n : Nat) (t : Text) : Text := t ++ List.replicate (n - t.length) ' '

/-- `"%ns" % t` -/
def padL (n : Nat) (t : Text) : Text := List.replicate (n - t.length) ' ' ++ t

/-- A row: name, backend, two counters of the filter, two of the actions (118) -/
def rowOf (e : Env) (n : Text) (r : R) : Option (List Text) :=
  match idx r 0, (idx r 1).bind items, (idx r 2).bind items with
  | some b, some f, some a => let row := n :: e.show b :: (f.map e.show ++ a.map e.show); if row.length = 6 then some row else none
  | _, _, _ => none

/-- Width of a column (119-122) -/
def width (m : Nat) (rows : List (List Text)) (i : Nat) : Nat := rows.foldl (fun w row => Nat.max w ((row[i]?).getD []).length) m

/-- Widths of the six columns -/
def widths (rows : List (List Text)) (i : Nat) : Nat := width (if i < 2 then 8 else 3) rows i

/-- Characters of the table (109-112) -/
def glyph (utf : Bool) (i : Nat) : Char :=
  if utf then (['║', '═', '╟', '╫', '╬', '╩', '│', '─'][i]?).getD ' ' else (['|', '-', '|', 'x', 'x', '-', '|', '-'][i]?).getD ' '

/-- `rfmt % row` and `hfmt % row` (123-135) -/
def line6 (utf : Bool) (w : Nat → Nat) (row : Nat → Text) : Text :=
  ' ' :: joinT [' ', glyph utf 0, ' '] [padR (w 0) (row 0), padR (w 1) (row 1),
    padL (w 2) (row 2) ++ [' ', glyph utf 6, ' '] ++ padL (w 3) (row 3), padL (w 4) (row 4) ++ [' ', glyph utf 6, ' '] ++ padL (w 5) (row 5)]

/-- A horizontal line (145-146, 150-151) -/
def rule (utf : Bool) (x : Nat) (t : List Nat) : Text :=
  glyph utf 1 :: (joinT [glyph utf 1, glyph utf x, glyph utf 1] (t.map (fun n => List.replicate n (glyph utf 1))) ++ [glyph utf 1])

/-- `_statstable(response, ct)` (113-152) -/
def table (utf : Bool) (rows : List (List Text)) : List Text :=
  let w := widths rows
  let t2 := 3 + w 2 + w 3
  let t3 := 3 + w 4 + w 5
  let bar : Text := [' ', glyph utf 0, ' ']
  [' ' :: joinT bar [padR (w 0) [], padR (w 1) [], padR t2 "Filter".toList, padR t3 "Actions".toList],
   ' ' :: (joinT bar [padR (w 0) "Jail".toList, padR (w 1) "Backend".toList] ++ [' ', glyph utf 2, glyph utf 7] ++
     joinT [glyph utf 7, glyph utf 3, glyph utf 7] [List.replicate t2 (glyph utf 7), List.replicate t3 (glyph utf 7)] ++ [glyph utf 7]),
   line6 utf w (fun i => if i = 2 ∨ i = 4 then "cur".toList else if i = 3 ∨ i = 5 then "tot".toList else []),
   rule utf 4 [w 0, w 1, t2, t3]] ++
  rows.map (fun row => line6 utf w (fun i => (row[i]?).getD [])) ++
  [rule utf 5 [w 0, w 1, t2, t3]]

/-- `stats` (153-158) -/
def stats (e : Env) (r : R) : Option (List Text) :=
  if truthy r then
    match r with
    | .dict d => (allSome (d.map (fun p => rowOf e p.1 p.2))).map (table e.utf)
    | _ => none
  else some ["No jails found.".toList]

/-! ## Lists -/

/-- Loops over `response[:-1]` and the last (189-191, 213-215) -/
def tree : List Text → List Text
  | [] => []
  | [t] => [['`', '-', ' '] ++ t]
  | t :: l => (['|', '-', ' '] ++ t) :: tree l

/-- The same with numbers (222-226) -/
def numbered (c : Nat) : List Text → List Text
  | [] => []
  | [t] => [['`', '-', ' ', '['] ++ Nat.toDigits 10 c ++ [']', ':', ' '] ++ t]
  | t :: l => (['|', '-', ' ', '['] ++ Nat.toDigits 10 c ++ [']', ':', ' '] ++ t) :: numbered (c + 1) l

/-- A list with a text for none and a head -/
def listing (none' head : Text) (f : List Text → List Text) (r : R) : Option Text :=
  match len r with
  | some 0 => some none'
  | some _ => (seq r).bind (fun l => (allSome (l.map asStr)).map (fun l => joinT ['\n'] (head :: f l)))
  | none => none

/-- A list in one line (227-249) -/
def inline (none' head : Text) (r : R) : Option Text :=
  match len r with
  | some 0 => some none'
  | some _ => (join [',', ' '] r).map (fun t => head ++ '\n' :: t)
  | none => none

def after (head : Text) (r : R) : Option Text := (asStr r).map (head ++ ·)

/-- Date pattern (202-209) -/
def datePattern (e : Env) (r : R) : Option Text :=
  let head := "Current date pattern set to: ".toList
  match r with
  | .none => some (head ++ "Not set/required".toList)
  | _ => match idx r 0 with
    | none => none
    | some .none => (idx r 1).map (fun n => head ++ e.show n)
    | some p => match r with
      | .tup [_, n] => some (head ++ e.show p ++ " (".toList ++ e.show n ++ [')'])
      | _ => none

/-- Result of a part that may raise -/
def ofText : Option Text → Shown
  | some t => .text t
  | none => .failed

/-- Commands of three and more words (182-250) -/
def beautify3 (e : Env) (c j o : Text) (more : List Text) (r : R) : Shown :=
  if o = "logpath".toList ∨ o = "addlogpath".toList ∨ o = "dellogpath".toList then
    ofText (listing "No file is currently monitored".toList "Current monitored log file(s):".toList tree r)
  else if o = "logencoding".toList then ofText (after "Current log encoding is set to:\n".toList r)
  else if o = "journalmatch".toList ∨ o = "addjournalmatch".toList ∨ o = "deljournalmatch".toList then
    ofText (match len r with
      | some 0 => some "No journal match filter set".toList
      | some _ => (items r).bind (fun l => (allSome (l.map (join [' ']))).map (fun l => "Current match filter:\n".toList ++ joinT " + ".toList l))
      | none => none)
  else if o = "datepattern".toList then ofText (datePattern e r)
  else if o = "ignoreip".toList ∨ o = "addignoreip".toList ∨ o = "delignoreip".toList then
    ofText (listing "No IP address/network is ignored".toList "These IP addresses/networks are ignored:".toList tree r)
  else if o = "failregex".toList ∨ o = "addfailregex".toList ∨ o = "delfailregex".toList ∨
      o = "ignoreregex".toList ∨ o = "addignoreregex".toList ∨ o = "delignoreregex".toList then
    ofText (listing "No regular expression is defined".toList "The following regular expression are defined:".toList (numbered 0) r)
  else if o = "actions".toList then
    ofText (inline ("No actions for jail ".toList ++ j) ("The jail ".toList ++ j ++ " has the following actions:".toList) r)
  else if o = "actionproperties".toList then
    match more with
    | a :: _ => ofText (inline ("No properties for jail ".toList ++ j ++ " action ".toList ++ a)
        ("The jail ".toList ++ j ++ " action ".toList ++ a ++ " has the following properties:".toList) r)
    | [] => .failed
  else if o = "actionmethods".toList then
    match more with
    | a :: _ => ofText (inline ("No methods for jail ".toList ++ j ++ " action ".toList ++ a)
        ("The jail ".toList ++ j ++ " action ".toList ++ a ++ " has the following methods:".toList) r)
    | [] => .failed
  else if o = "banip".toList ∧ c = "get".toList then
    match r with
    | .list _ => ofText (join (match more with
        | [] => [' ']
        | s :: _ => if s = "--with-time".toList then ['\n'] else s) r)
    | _ => .raw r
  else .raw r

/-- Commands of two and more words (159-181) -/
def beautify2 (e : Env) (c j : Text) (rest : List Text) (r : R) : Shown :=
  if j = "syslogsocket".toList then ofText (after "Current syslog socket is:\n`- ".toList r)
  else if j = "logtarget".toList then ofText (after "Current logging target is:\n`- ".toList r)
  else if j = "loglevel".toList then
    .text ("Current logging level is ".toList ++ (match r with
      | .int i => e.repr (.str (e.level i))
      | _ => e.repr r))
  else if j = "dbfile".toList then
    match r with
    | .none => .text "Database currently disabled".toList
    | _ => ofText (after "Current database file is:\n`- ".toList r)
  else if j = "dbpurgeage".toList then
    match r with
    | .none => .text "Database currently disabled".toList
    | .int i => .text ("Current database purge age is:\n`- ".toList ++ i.repr.toList ++ "seconds".toList)
    | _ => .failed
  else match rest with
    | o :: more => beautify3 e c j o more r
    | [] => .raw r

/-- `beautify(response)` (52-256), `cmd` as given by `setInputCmd` -/
def beautify (e : Env) (cmd : List Text) (r : R) : Shown :=
  match cmd with
  | [] => .failed
  | c :: rest =>
    if c = "ping".toList then ofText (after "Server replied: ".toList r)
    else if c = "version".toList then .raw r
    else if c = "start".toList then .text "Jail started".toList
    else if c = "stop".toList then
      match r with
      | .none => .text (if rest.isEmpty then "Shutdown successful".toList else "Jail stopped".toList)
      | _ => .raw r
    else if c = "add".toList then ofText (after "Added jail ".toList r)
    else if c = "flushlogs".toList then ofText (after "logs: ".toList r)
    else if c = "echo".toList then ofText (join [' '] r)
    else if c = "status".toList then
      match rest with
      | j :: _ =>
        if j ≠ "--all".toList then
          ofText (((items r).bind (jailStat e [])).map (fun l => joinT ['\n'] (("Status for the jail: ".toList ++ j) :: l)))
        else ofText ((statusAll e true r).map (joinT ['\n']))
      | [] => ofText ((statusAll e false r).map (joinT ['\n']))
    else if c = "stats".toList ∨ c = "statistics".toList then ofText ((stats e r).map (joinT ['\n']))
    else match rest with
      | j :: rest => beautify2 e c j rest r
      | [] => .raw r

/-! ## Errors (258-272) -/

inductive Error where
  | unknownJail (name : Text)
  | duplicateJail (name : Text)
  | index
  | other (r : R)

/-- `beautifyError(response)` -/
def errorText : Error → Shown
  | .unknownJail n => .text ("Sorry but the jail '".toList ++ n ++ "' does not exist".toList)
  | .index => .text "Sorry but the command is invalid".toList
  | .duplicateJail n => .text ("The jail '".toList ++ n ++ "' already exists".toList)
  | .other r => .raw r

end Verif.Beautify
