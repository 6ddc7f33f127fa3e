import Verif.Model.Client

/-!
# Interactive mode of the client — `fail2ban/client/fail2banclient.py` (39-43, 395-448, 510-516)

Input is a list of lines, after which it ends (EOFError). Single commands are those of `Verif.Model.Client`; an exception of a command
counts there as failure, which is the same here (426-432). Signals (exit with 255, lines 68-72), a missing module `readline`
(then nothing is done, 255), what is printed besides answers, and that `restart` reads the command line again (lines 297-302) are not
modelled.
-/

namespace Verif.Interactive

open Verif.Client

variable {σ : Type}

/-- A line of input (lines 419-425). -/
inductive Line where
  /-- `exit` or `quit` -/
  | leave
  /-- `help` -/
  | help
  | empty
  /-- `shlex.split` raises an exception -/
  | wrong
  | command (words : List String)

/-- What a line is (lines 420-427); `split` is `shlex.split`, `none` for an exception. -/
def line (split : String → Option (List String)) (s : String) : Line :=
  if s = "exit" ∨ s = "quit" then .leave
  else if s = "help" then .help
  else if s = "" then .empty
  else match split s with
    | none => .wrong
    | some ws => .command ws

/-- The end of a session: exit code, state, events, and how often the usage was shown. -/
structure End (σ : Type) where
  code : Nat
  state : σ
  events : List Ev
  usages : Nat
deriving DecidableEq

/-- The loop (lines 418-432). At the end of input EOFError is raised, which is an exception for line 444: the result is false. -/
def session (w : World σ) (conf : Conf) (split : String → Option (List String)) : List String → σ → List Ev → Nat → End σ
  | [], s, evs, n => ⟨255, s, evs, n⟩
  | l :: ls, s, evs, n =>
    match line split l with
    | .leave => ⟨0, s, evs, n⟩
    | .help => session w conf split ls s evs (n + 1)
    | .empty => session w conf split ls s evs n
    | .wrong => session w conf split ls s evs n
    | .command ws =>
      session w conf split ls (processCommand w conf ws s).2.1 (evs ++ (processCommand w conf ws s).2.2) n

/-- `fail2ban-client -i args` (lines 407-435): the arguments are the first command; if it fails, there is no session. -/
def start (w : World σ) (conf : Conf) (split : String → Option (List String)) (args : List String) (input : List String) (s : σ) : End σ :=
  if args = [] then session w conf split input s [] 0
  else if (processCommand w conf args s).1 then
    session w conf split input (processCommand w conf args s).2.1 (processCommand w conf args s).2.2 0
  else ⟨255, (processCommand w conf args s).2.1, (processCommand w conf args s).2.2, 0⟩

end Verif.Interactive
