import Verif.Model.CommandAction

/-!
# Spec: what an observer of the commands of an action knows about a family
-/

namespace Verif.Spec.CmdAction

open Verif.CmdAction

/-- What the events so far tell about a family. -/
structure Watch where
  /-- the last start or repair succeeded and was not followed by a stop -/
  up : Bool
  /-- a start is due: not yet started, or stopped or found broken since -/
  free : Bool
  /-- something was banned, and since then not flushed, stopped, started, repaired or found broken -/
  items : Bool
deriving DecidableEq, Repr

/-- One event, for a family. -/
def look (f : Fam) (w : Watch) : Event → Watch
  | .cmd .start g _ ok => if g = f ∧ ok = true then ⟨true, false, false⟩ else w
  | .cmd .stop g _ _ => if g = f then ⟨false, true, false⟩ else w
  | .cmd .check g _ ok => if g = f ∧ ok = false then ⟨w.up, true, false⟩ else w
  | .cmd .repair g _ ok => if g = f then (if ok = true then ⟨true, false, false⟩ else ⟨false, true, false⟩) else w
  | .cmd .flush g _ ok => if g = f ∧ ok = true then { w with items := false } else w
  | .cmd .ban g _ ok => if g = f ∧ ok = true then { w with items := true } else w
  | .cmd .reban g _ ok => if g = f ∧ ok = true then { w with items := true } else w
  | .call .stop => ⟨w.up, true, false⟩
  | .call .start => { w with items := false }
  | _ => w

/-- All events. -/
def watch (f : Fam) (tr : List Event) : Watch := tr.foldl (look f) ⟨false, true, false⟩

/-- An action started on demand, whose start commands are there and differ between families. -/
structure OnDemand (cfg : Config) : Prop where
  onDemand : cfg.onDemand = true
  nonempty : ∀ f c, cfg.op .start f = some c → c ≠ []
  distinct : ∀ f g c, cfg.op .start f = some c → cfg.op .start g = some c → f = g

/-- The flush commands are there and differ between families. -/
structure FlushEach (cfg : Config) : Prop where
  nonempty : ∀ f c, cfg.op .flush f = some c → c ≠ []
  distinct : ∀ f g c, cfg.op .flush f = some c → cfg.op .flush g = some c → f = g

/-- What is right to happen after the events `A`. -/
def Right (A : List Event) : Event → Prop
  | .cmd .ban f _ _ => (watch f A).up = true
  | .cmd .reban f _ _ => (watch f A).up = true
  | .cmd .start f _ _ => (watch f A).free = true
  | .cmd .stop f _ _ => (watch f A).up = true ∨ ∃ A' c, A = A' ++ [.cmd .check f c false]
  | _ => True

/-- A command about the environment of the action: start, stop, check or repair. -/
def Service : Event → Prop
  | .cmd .start _ _ _ => True
  | .cmd .stop _ _ _ => True
  | .cmd .check _ _ _ => True
  | .cmd .repair _ _ _ => True
  | _ => False

/-- A command that may remove bans: stop or repair. -/
def Restores : Event → Prop
  | .cmd .stop _ _ _ => True
  | .cmd .repair _ _ _ => True
  | _ => False

/-- A start command. -/
def Starts : Event → Prop
  | .cmd .start _ _ _ => True
  | _ => False

/-- The start command `c` was executed successfully, for whatever family. -/
def Begun (env : Env) (c : Cmd) (tr : List Event) : Prop := c = [] ∨ ∃ A g, env.dyn A g c = [] ∨ .cmd .start g (env.dyn A g c) true ∈ tr

/-- The environment of a family was prepared: by its start command or by a repair. -/
def Prepared (env : Env) (cfg : Config) (f : Fam) (tr : List Event) : Prop :=
  (∃ c, cfg.op .start f = some c ∧ Begun env c tr) ∨ ∃ c, .cmd .repair f c true ∈ tr

/-- The commands of an operation are there and differ between families. -/
structure Each (cfg : Config) (t : Tag) : Prop where
  nonempty : ∀ f c, cfg.op t f = some c → c ≠ []
  distinct : ∀ f g c, cfg.op t f = some c → cfg.op t g = some c → f = g

/-- What is executed for a command `c` about a ticket: one execution if it succeeds; otherwise, perhaps after checking and restoring the
environment, one more; none more only if the environment was found broken. `ok` is the exit of the last one. -/
def Attempt (t : Tag) (f : Fam) (c : Cmd) (check ok : Bool) (seg : List Event) : Prop :=
  (ok = true ∧ seg = [.cmd t f c true]) ∨
  ∃ mid, (∀ e ∈ mid, Service e) ∧ (check = false → mid = []) ∧
    (seg = .cmd t f c false :: (mid ++ [.cmd t f c ok]) ∨ (check = true ∧ ok = false ∧ seg = .cmd t f c false :: mid))

/-- The same with a check command `k` and a repair command `r`, in full. -/
def Mended (t : Tag) (f : Fam) (c k r : Cmd) (ok : Bool) (seg : List Event) : Prop :=
  (ok = true ∧ seg = [.cmd t f c true]) ∨
  seg = [.cmd t f c false, .cmd .check f k true, .cmd t f c ok] ∨
  seg = [.cmd t f c false, .cmd .check f k false, .cmd .repair f r true, .cmd .check f k true, .cmd t f c ok] ∨
  (ok = false ∧ seg = [.cmd t f c false, .cmd .check f k false, .cmd .repair f r true, .cmd .check f k false]) ∨
  (ok = false ∧ seg = [.cmd t f c false, .cmd .check f k false, .cmd .repair f r false])

/-- With a check command `k` and no repair command: the action is stopped (`p`) and started (`a`). -/
def Restarted (t : Tag) (f : Fam) (c k p a : Cmd) (ok : Bool) (seg : List Event) : Prop :=
  (ok = true ∧ seg = [.cmd t f c true]) ∨
  seg = [.cmd t f c false, .cmd .check f k true, .cmd t f c ok] ∨
  (∃ b, seg = [.cmd t f c false, .cmd .check f k false, .cmd .stop f p b, .cmd .start f a true, .cmd .check f k true, .cmd t f c ok]) ∨
  (∃ b, ok = false ∧ seg = [.cmd t f c false, .cmd .check f k false, .cmd .stop f p b, .cmd .start f a true, .cmd .check f k false]) ∨
  (∃ b, ok = false ∧ seg = [.cmd t f c false, .cmd .check f k false, .cmd .stop f p b, .cmd .start f a false])

/-- Nothing dynamic in the commands of operations. -/
def Static (env : Env) : Prop := ∀ tr f c, env.dyn tr f c = c

/-- The tags of a ticket do not make a command disappear. -/
def KeepsCommands (env : Env) : Prop := ∀ tr f c, c ≠ [] → env.dyn tr f c ≠ []

end Verif.Spec.CmdAction
