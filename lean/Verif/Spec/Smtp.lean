import Verif.Model.Smtp

/-! # What a mail about a ban contains and how it is sent -/

namespace Verif.SmtpSpec

open Verif Verif.IPAddr Verif.Smtp

/-- Text of a template or a value in it. -/
inductive Piece where
  | lit (s : Str)
  | str (name : Str)
  | num (name : Str)

/-- How it is written. -/
def Piece.source : Piece → Str
  | .lit s => s
  | .str n => "%(".toList ++ n ++ ")s".toList
  | .num n => "%(".toList ++ n ++ ")i".toList

/-- Pieces as used here. -/
def Piece.Ok : Piece → Prop
  | .lit s => '%' ∉ s
  | .str n => ')' ∉ n
  | .num n => ')' ∉ n

/-- Text of a value. -/
def shown : Val → Str
  | .text s => s
  | .int n => (toString n).toList

/-- What stands there in the end: a value is not looked into. -/
inductive Reads (v : Str → Option Val) : Piece → Str → Prop where
  | lit (s : Str) : Reads v (.lit s) s
  | str (n : Str) (x : Val) : v n = some x → Reads v (.str n) (shown x)
  | num (n : Str) (i : Int) : v n = some (.int i) → Reads v (.num n) (shown (.int i))

/-- Pieces one after another. -/
inductive Filled (v : Str → Option Val) : List Piece → Str → Prop where
  | nil : Filled v [] []
  | cons {p : Piece} {ps : List Piece} {s t : Str} : Reads v p s → Filled v ps t → Filled v (p :: ps) (s ++ t)

/-- The part of a mail about matches. -/
def matchPart (kind : Option Str) (jail : Str) (ip m : Str) : Str :=
  if kind = some "matches".toList then "\nMatches for this ban:\n".toList ++ m ++ "\n".toList
  else if kind = some "ipmatches".toList then "\nMatches for ".toList ++ ip ++ ":\n".toList ++ m ++ "\n".toList
  else if kind = some "ipjailmatches".toList then "\nMatches for ".toList ++ ip ++ " for jail ".toList ++ jail ++ ":\n".toList ++ m ++ "\n".toList
  else []

/-- Text of the mail about a ban. -/
def banMail (kind : Option Str) (jail ip m : Str) (bantime failures : Int) : Str :=
  "Hi,\n\nThe IP ".toList ++ ip ++ " has just been banned for ".toList ++ shown (.int bantime) ++ " seconds\nby Fail2Ban after ".toList ++
    shown (.int failures) ++ " attempts against ".toList ++ jail ++ ".\n".toList ++ matchPart kind jail ip m ++ "\nRegards,\nFail2Ban".toList

/-- Steps of a session, each with the call that others see (none for the rendering) and how it goes. -/
def steps (n : Net) (c : Cfg) (h p subject text : Str) : List (Option Ev × Option Exc) :=
  [(some (.connect h p), n.connect)] ++
  (if c.ssl = .int 0 ∨ c.ssl = .text [] then [] else
    [(some .starttls, match n.starttls with
      | .error e => some e
      | .ok code => if code = 220 then none else some .tls)]) ++
  (match c.user, c.password with
    | some (u :: us), some (q :: qs) => [(some (.login (u :: us) (q :: qs)), n.login)]
    | _, _ => []) ++
  [(none, n.render subject text), (some (.mail c.sender (recipients c.dest) subject text), n.mail)]

/-- What is seen of steps done in turn until one fails. -/
def seen : List (Option Ev × Option Exc) → List Ev
  | [] => []
  | (e, some _) :: _ => e.toList
  | (e, none) :: l => e.toList ++ seen l

/-- The first failure. -/
def failed (l : List (Option Ev × Option Exc)) : Option Exc := l.findSome? (fun x => x.2)

/-- Subject of the mail about a ban. -/
def banSubj (jail ip host : Str) : Str := "[Fail2Ban] ".toList ++ jail ++ ": banned ".toList ++ ip ++ " from ".toList ++ host

/-- A ban that is told. -/
def tells (x : World × Cfg × Call) : Bool :=
  match x.2.2 with
  | .ban info => !((info "restored".toList).map Val.truthy).getD false
  | _ => false

/-- A call that asks for the name of the host. -/
def asks (x : World × Cfg × Call) : Bool :=
  match x.2.2 with
  | .ban _ => tells x
  | _ => true

end Verif.SmtpSpec
