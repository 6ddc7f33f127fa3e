import Verif.Model.Daemon

/-! # What a daemon is -/

namespace Verif.DaemonSpec

open Daemon (Proc Fd File End Env)

/-- A process that has no part in the session of another one and cannot get a terminal, that blocks no directory and whose files only its user can read -/
structure Detached (d p : Proc) : Prop where
  other : d.id ≠ p.id
  session : d.session ≠ p.session
  notLeader : d.session ≠ d.id
  terminal : d.terminal = false
  root : d.root = true
  hup : d.hup = true
  umask : d.umask = 0o077

/-- The numbers of new processes are none that is in use -/
structure Fresh (env : Env) (p : Proc) : Prop where
  first : ∀ a, env.fork1 = .ok a → a ≠ p.id ∧ a ≠ p.session
  second : ∀ a b, env.fork1 = .ok a → env.fork2 = .ok b → b ≠ p.id ∧ b ≠ a

/-- All descriptors are found -/
def Listed (env : Env) (p : Proc) : Prop :=
  (env.exists1 = true ∨ env.exists2 = true) ∧ ∃ l, env.listing = some l ∧ ∀ f ∈ p.fds, some f.num ∈ l

/-- Standard input, output and error are `/dev/null` -/
def Silent (fds : List Fd) : Prop :=
  ⟨0, .null false, false⟩ ∈ fds ∧ ⟨1, .null true, false⟩ ∈ fds ∧ ⟨2, .null true, false⟩ ∈ fds

/-- A daemon can be created -/
structure Possible (env : Env) : Prop where
  first : ∃ a, env.fork1 = .ok a
  second : ∃ b, env.fork2 = .ok b
  null : env.hasNull = true
  close : ((env.exists1 = true ∨ env.exists2 = true) ∧ env.listing.isSome = true) ∨ env.maxfd ≠ .raises

/-- The processes that serve -/
def servers (l : List (Proc × End)) : List Proc := (l.filter (fun x => x.2 = .serves)).map Prod.fst

end Verif.DaemonSpec
