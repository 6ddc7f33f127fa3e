import Verif.Model.Reader
import Verif.Model.Server

/-!
# Commands of the configuration on the server — `fail2ban/server/transmitter.py` 118-130, 158-412
-/

namespace Verif.Reader

/-- A value as text (values are sent as they are; `None` as text, client/csocket.py 64-72). -/
def shownVal : Option Val → String
  | none => "None"
  | some (.str s) => String.ofList s
  | some (.int i) => toString i
  | some (.bool true) => "True"
  | some (.bool false) => "False"

/-- `__commandSet` for a jail (transmitter.py 225-412); `mk` gives the action for its commands. Commands not listed set an option. -/
def settings (mk : Str → List Str → Action) : Cmd → List Setting
  | .set _ (k :: vs) =>
    if k = arg "addfailregex".toList then (vs.take 1).map (fun v => .failRegex (shownVal v))
    else if k = arg "addignoreregex".toList then (vs.take 1).map (fun v => .ignoreRegex (shownVal v))
    else if k = arg "addignoreip".toList then vs.map (fun v => .ignoreIP (shownVal v))
    else if k = arg "addlogpath".toList then (vs.take 1).map (fun v => .logPath (shownVal v))
    else (vs.take 1).map (fun v => .option (shownVal k) (shownVal v))
  | .multiSet _ k vs =>
    if k = "addfailregex" then vs.map (fun v => .failRegex (String.ofList v))
    else if k = "addignoreregex" then vs.map (fun v => .ignoreRegex (String.ofList v))
    else []
  | .action _ n cmd => [.action (String.ofList n) (mk n cmd)]
  | _ => []

/-- A command for the server. -/
def toServer (mk : Str → List Str → Action) (c : Cmd) : List SCmd :=
  match c with
  | .add j b => [.add (String.ofList j) (String.ofList b)]
  | .start j => [.start (String.ofList j)]
  | .configError => [.configError]
  | .set j _ => (settings mk c).map (.set (String.ofList j))
  | .multiSet j _ _ => (settings mk c).map (.set (String.ofList j))
  | .action j _ _ => (settings mk c).map (.set (String.ofList j))

end Verif.Reader
