/-!
# Shared configuration — `fail2ban/client/configreader.py` (62-133)

Readers of one start or reload have a common dictionary, in which parsed configurations are kept by name. Each call here is `read` of
a new reader with that dictionary (jailreader.py 161-164, 207-210, fail2banregex.py 345-347). What the files contain at each
access is arbitrary, also how a second reading changes what was read before.
-/

namespace Verif.Share

/-- `ConfigReaderUnshared`: directory, `read_cfg_files`, and what was parsed. -/
structure Obj (α : Type) where
  base : String
  done : Option Bool
  content : α

/-- `read(name, once)` of a new reader with the directory `base` (by `basedir=` or `setBaseDir`). -/
structure Call where
  base : String
  name : String
  once : Bool

/-- Access to files: number of the access, directory, name and content before; `none` for an exception (lines 205-244). -/
abbrev Files (α : Type) := Nat → String → String → α → Option (Bool × α)

structure State (α : Type) where
  /-- the dictionary -/
  shared : String → Option (Obj α)
  /-- accesses so far: directory, name, and whether there was no exception -/
  log : List (String × String × Bool)

/-- The reader's object (`_create_unshared`, lines 119-133): that of the dictionary, or a new one. -/
def obj {α : Type} (empty : α) (s : State α) (c : Call) : Obj α := (s.shared c.name).getD ⟨c.base, none, empty⟩

/-- Entry in the dictionary. -/
def put {α : Type} (s : State α) (name : String) (o : Obj α) : String → Option (Obj α) := fun k => if k = name then some o else s.shared k

/-- `read` (lines 98-117): the state, and the result with what the reader shows, `none` for an exception. -/
def read {α : Type} (fs : Files α) (empty : α) (s : State α) (c : Call) : State α × Option (Bool × α) :=
  let o := obj empty s c
  match c.once, o.done with
  | true, some r => (s, some (r, o.content))
  | _, _ =>
    match fs s.log.length o.base c.name o.content with
    | none => (⟨put s c.name o, s.log ++ [(o.base, c.name, false)]⟩, none)
    | some (r, x) => (⟨put s c.name ⟨o.base, some r, x⟩, s.log ++ [(o.base, c.name, true)]⟩, some (r, x))

/-- Calls one after the other. -/
def run {α : Type} (fs : Files α) (empty : α) : State α → List Call → State α × List (Option (Bool × α))
  | s, [] => (s, [])
  | s, c :: cs => ((run fs empty (read fs empty s c).1 cs).1, (read fs empty s c).2 :: (run fs empty (read fs empty s c).1 cs).2)

/-- An empty dictionary. -/
def start {α : Type} : State α := ⟨fun _ => none, []⟩

end Verif.Share
