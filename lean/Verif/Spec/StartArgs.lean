import Verif.Model.StartArgs

/-!
# Which settings a server has that was started by the client
-/

namespace Verif.StartArgs.Spec

open Verif.CmdLine

/-- Settings that belong to the server and can be given on the command line -/
def shared : List Param := [.socket, .pidfile, .loglevel, .logtarget, .syslogsocket]

/-- The client knows all of them -/
def Known (c : Conf) : Prop := ∀ p ∈ shared, ∃ v, c.params p = some v

/-- The settings of a server that was started by a client with settings `c` -/
def started (c : Conf) : Conf where
  async := true
  force := c.force
  background := true
  verbose := max 1 c.verbose
  params := fun p => if p ∈ shared then c.params p else none

end Verif.StartArgs.Spec
