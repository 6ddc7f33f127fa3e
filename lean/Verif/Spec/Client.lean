import Verif.Model.Client

/-! # What is asked and answered -/

namespace Verif.Spec.Client

open Verif.Client

variable {σ : Type}

/-- The world answers these commands, one after the other, with these answers -/
inductive Answers (w : World σ) : σ → List Cmd → List Reply → σ → Prop
  | nil (s : σ) : Answers w s [] [] s
  | cons (s s1 s2 : σ) (c : Cmd) (cs : List Cmd) (r : Reply) (rs : List Reply) (h : w.send s c = (r, s1)) (hs : Answers w s1 cs rs s2) :
      Answers w s (c :: cs) (r :: rs) s2

/-- The server has done it -/
def Done (r : Reply) : Prop := ∃ v, r = .ok v

/-- Commands sent -/
def sent : List Ev → List Cmd
  | [] => []
  | .send c :: l => c :: sent l
  | _ :: l => sent l

/-- Answers to these are shown always -/
def Shown (c : Cmd) : Prop := c = .serverStatus ∨ (∃ l, c = .words ("echo" :: l)) ∨ ∃ l, c = .words ("server-status" :: l)

open Classical in
/-- What the user sees of an answer -/
noncomputable def seen (all : Bool) : Cmd × Reply → List Ev
  | (c, .ok v) => if all = true ∨ Shown c then [.out c v] else []
  | (c, .nok e) => if all = true then [.outErr c e] else []
  | (_, .fail) => []

/-- The events of the display -/
def display : List Ev → List Ev
  | [] => []
  | .out c v :: l => .out c v :: display l
  | .outErr c e :: l => .outErr c e :: display l
  | _ :: l => display l

/-- Options of `reload` -/
def options : List String := ["--restart", "--unban", "--if-exists"]

/-- Arguments of `reload`: options, then at most one name -/
def ReloadForm (args opts : List String) (name : Option String) : Prop :=
  args = opts ++ name.toList ∧ (∀ o ∈ opts, o ∈ options) ∧ ∀ n, name = some n → n ∉ options

/-- The jail that is meant -/
def jailOf (name : Option String) : Option String := name.filter (· != "--all")

/-- The clock goes on: by what is slept, and never back -/
structure Clock (w : World σ) : Prop where
  sleep : ∀ s n, w.now s + n ≤ w.now (w.sleep s n)
  send : ∀ s c, w.now s ≤ w.now (w.send s c).2

end Verif.Spec.Client
