import Verif.Model.FindFailure

/-!
# What a line means (specification for C57-C59)
-/

namespace Verif.Spec.Find

open Verif

/-- Captured values by name. -/
abbrev Vals := String → Option String

/-- The text that identifies a host: an IPv4 address, an IPv6 address or a name, in this order. -/
def host (v : Vals) : Option (String × AddrKind) :=
  ([("ip4", AddrKind.ip4), ("ip6", AddrKind.ip6), ("dns", AddrKind.default)]).findSome? (fun x => (v x.1).map (fun t => (t, x.2)))

/-- Is the host given by name, to be resolved? -/
def byName (env : FindEnv) (v : Vals) : Bool := !env.raw && (v "ip4").isNone && (v "ip6").isNone && (v "dns").isSome

/-- The address `t` stands for. -/
def address (env : FindEnv) (v : Vals) (t : String) (k : AddrKind) : Option IPAddr :=
  env.addr t k (if k = .default then none else v "cidr")

/-- Failure-ids and, if the id is not the host, the host. Outside: `none` if there is an error; inside: `none` if nothing identifies the failure. -/
def ids (env : FindEnv) (v : Vals) : Option (Option (List IPAddr × Option IPAddr)) :=
  if byName env v then (v "dns").map (fun t => some (env.textToIp t, none))
  else
    match host v, v "fid" with
    | none, none => some none
    | none, some f => (address env v f .default).map (fun a => some ([a], none))
    | some (t, k), f =>
      (address env v t k).bind (fun a =>
        if f = none ∨ f = some t then some (some ([a], none))
        else (f.bind (fun f => address env v f .default)).map (fun i => some ([i], some a)))

/-- A matched line of a connection. -/
structure Ev where
  index : Nat
  vals : Vals
  lines : List TLine

/-- a flag is set -/
def Ev.flag (e : Ev) (k : String) : Bool := (e.vals k).any (fun s => decide (s ≠ ""))

/-- user named in the line -/
def Ev.user (e : Ev) : Option String := (e.vals "user").filter (fun s => decide (s ≠ ""))

/-! In the following the history of a connection is given newest event first. -/

/-- The last value known. -/
def val (h : List Ev) : Vals := fun k => h.findSome? (fun e => e.vals k)

/-- Were different users tried? -/
def several (h : List Ev) : Bool := h.any (fun e => h.any (fun e' => e.user.isSome && e'.user.isSome && decide (e.user ≠ e'.user)))

/-- What the last event of a connection amounts to. -/
inductive Status where
  /-- no failure -/
  | nofail
  /-- failure, but of whom is not known yet -/
  | pending
  /-- failure to be reported -/
  | report
deriving DecidableEq

/-- Status after a history. An event that is marked as "no failure" is one nevertheless, if different users were tried or a failure is waiting for its
identification (unless access was gained). -/
def status (env : FindEnv) : List Ev → Status
  | [] => .report
  | e :: h =>
    if (e.flag "nofail" || e.flag "mlfgained") && !several (e :: h) && !(decide (status env h = .pending) && !e.flag "mlfgained") then .nofail
    else if ids env (val (e :: h)) = some none then .pending else .report

/-- The lines waiting to be reported: all of them since the last report; a waiting failure is forgotten if access was gained. -/
def waiting (env : FindEnv) : List Ev → List TLine
  | [] => []
  | e :: h =>
    (match status env h with
      | .report => []
      | .pending => if e.flag "mlfgained" then [] else waiting env h
      | .nofail => waiting env h) ++ e.lines

/-- The host of the last failure that was not identified by its host. -/
def lastHost (env : FindEnv) : List Ev → Option IPAddr
  | [] => none
  | e :: h =>
    if status env (e :: h) = .report then
      match ids env (val (e :: h)) with
      | some (some (_, some a)) => some a
      | _ => lastHost env h
    else lastHost env h

/-- Names that have a meaning for the state of the connection only. -/
def flags : List String := ["nofail", "mlfgained", "mlfforget"]

/-- A user recorded for a connection (a connection forgotten with its only line has none). -/
def Tried (h : List Ev) (u : String) : Prop := ∃ e ∈ h, e.user = some u ∧ ¬ (h = [e] ∧ e.flag "mlfforget" = true)

/-- Data of a failure tells about the connection with history `h`. -/
structure About (env : FindEnv) (h : List Ev) (f : Fail) : Prop where
  vals : ∀ k, k ∉ flags → f.groups.val k = val h k
  users : ∀ u, u ∈ f.users ↔ Tried h u
  once : f.users.Nodup
  host : f.ip = lastHost env h

/-- The right outcome of the last event of a history. -/
def Right (env : FindEnv) (h : List Ev) (index : Nat) (o : Find.Outcome) : Prop :=
  match status env h with
  | .nofail => o = .done []
  | .pending => o = .done []
  | .report =>
    match ids env (val h) with
    | some (some (fids, _)) => ∃ f, o = .done (fids.map (fun fid => ⟨index, fid, f⟩)) ∧ About env h f ∧ f.lines = waiting env h
    | _ => o = .error

/-- A match of a line. -/
structure Step where
  /-- wall clock -/
  now : Int
  /-- connection -/
  conn : String
  index : Nat
  groups : Groups
  lines : List TLine

/-- the event -/
def Step.ev (x : Step) : Ev := ⟨x.index, x.groups.val, x.lines⟩

/-- What is remembered at time `now` of a connection: nothing, if its first event was `life` or more ago. -/
def alive (life now : Int) (h : List Step) : List Step :=
  match h.getLast? with
  | some y => if now < y.now + life then h else []
  | none => []

/-- Events kept of a connection after some steps (newest first): the ones since it was forgotten. -/
def kept (life : Int) (m : String) : List Step → List Step
  | [] => []
  | x :: xs =>
    if x.conn = m then (if x.ev.flag "mlfforget" then [] else x :: alive life x.now (kept life m xs))
    else kept life m xs

/-- There is room for the connection of a step: fewer than `n` other ones are kept. -/
def Room (n : Nat) (life : Int) (past : List Step) (x : Step) : Prop :=
  ∃ others : List String, others.length < n ∧ ∀ m, m ≠ x.conn → kept life m past ≠ [] → m ∈ others

/-- The state after some steps (oldest first). -/
def run (env : FindEnv) (s : FindState) (xs : List Step) : FindState :=
  xs.foldl (fun s x => (Find.handle env x.now s x.index x.groups x.lines).2) s

/-! ## Single lines -/

/-- The text of a line as searched. -/
def whole (l : TLine) : String := l.pre ++ l.post ++ "\n"

/-- The text that is searched for failures and what is captured of the prefix; `none` if the prefix does not match. -/
def searched (env : FindEnv) (l : TLine) : Option (String × Vals) :=
  match env.prefRegex with
  | none => some (whole l, fun _ => none)
  | some r =>
    (r (whole l)).map (fun m =>
      match m.groups.val "content" with
      | some c => (if c ≠ "" then c ++ "\n" else whole l, fun k => if k = "content" then none else m.groups.val k)
      | none => (whole l, m.groups.val))

/-- The values captured by the prefix `p` and a match `g`. -/
def captured (p : Vals) (g : Groups) : Vals := fun k => if k ∈ g.keys then g.val k else p k

/-- The first of some expressions that matches. -/
def First (rs : List Rx) (t : String) (i : Nat) (m : RxMatch) : Prop :=
  (∃ r, rs[i]? = some r ∧ r t = some m) ∧ ∀ j, j < i → ∀ r, rs[j]? = some r → r t = none

/-- Some expression for lines to be ignored matches. -/
def Ignores (env : FindEnv) (t : String) : Prop := ∃ r ∈ env.ignoreRegex, r t ≠ none

/-- There are clearly less expressions for lines to be ignored than ones for failures. -/
def Few (env : FindEnv) : Prop := env.ignoreRegex.length + 2 < env.failRegex.length

/-- A line counts as a match of the expression with number `i`, with captured values `v`. -/
def Matches (env : FindEnv) (l : TLine) (i : Nat) (v : Vals) : Prop :=
  ∃ t p m, searched env l = some (t, p) ∧ First env.failRegex t i m ∧ v = captured p m.groups ∧ ¬ Ignores env t ∧ ¬ (Few env ∧ Ignores env (whole l))

/-- A line read. -/
structure Read where
  /-- wall clock -/
  now : Int
  /-- without a date -/
  drop : Bool
  line : TLine

/-- The state after some lines. -/
def runLines (env : FindEnv) (s : FindState) (ls : List Read) : FindState :=
  ls.foldl (fun s x => (Find.findFailure env x.now x.drop s x.line).2) s

/-- The step a line amounts to. -/
structure StepOf (env : FindEnv) (r : Read) (x : Step) : Prop where
  dated : r.drop = false
  isMatch : Matches env r.line x.index x.groups.val
  conn : x.groups.val "mlfid" = some x.conn
  now : x.now = r.now
  lines : x.lines = [r.line]

/-- The steps some lines amount to. -/
inductive Steps (env : FindEnv) : List Read → List Step → Prop where
  | nil : Steps env [] []
  /-- the line has no date, or does not match -/
  | skip {r rs xs} : r.drop = true ∨ (∀ i v, ¬ Matches env r.line i v) → Steps env rs xs → Steps env (r :: rs) xs
  | step {r rs x xs} : StepOf env r x → Steps env rs xs → Steps env (r :: rs) (x :: xs)

/-- the answer to the caller, `none` for an exception -/
def answer : Find.Outcome → Option (List Report)
  | .done r => some r
  | _ => none

/-- The text of several lines. -/
def textOf : List TLine → String
  | [] => "\n"
  | [l] => whole l
  | l :: ls => whole l ++ textOf ls

/-- The last `n` lines. -/
def lastLines (n : Nat) (ls : List TLine) : List TLine := (ls.reverse.take n).reverse

/-- the answers to some lines -/
def answers (env : FindEnv) (s : FindState) : List Read → List (Option (List Report))
  | [] => []
  | r :: rs => (Find.findFailure env r.now r.drop s r.line).1 :: answers env (Find.findFailure env r.now r.drop s r.line).2 rs

/-- the lines of the failure reported by an answer -/
def reported : Option (List Report) → List TLine
  | some (r :: _) => r.fail.lines
  | _ => []

/-- what an answer tells: expression, failure-id, lines -/
def told (o : Option (List Report)) : Option (List (Nat × IPAddr × List TLine)) := o.map (fun l => l.map (fun r => (r.index, r.fid, r.fail.lines)))

end Verif.Spec.Find
