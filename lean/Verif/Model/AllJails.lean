import Verif.Model.Actions

/-!
# Commands over all jails — `fail2ban/server/server.py` (531-569, 600-632), `fail2ban/server/transmitter.py` (112-123, 367-374, 445-447)

Jails are a list of names with their actions, in the order they were added. Each jail has its own environment. Locks are not modelled.
-/

namespace Verif.AllJails

/-- `__jails` -/
abbrev Jails := List (String × Actions)

/-- How an unban ends -/
inductive Ret where
  | count (n : Nat)
  /-- `UnknownJailException` -/
  | unknown
  /-- `ValueError`, with the addresses that are not banned -/
  | missing (ips : List Fid)
  /-- another exception (of an action) -/
  | raised
deriving DecidableEq

/-- `jail.actions.removeBannedIP(value, ifexists=ifexists)`; `none` are all addresses -/
def unbanJail (env : Env) (net : Fid → Option (Fid → Bool)) (ifexists : Bool) (value : Option (List Fid)) (s : Actions) : Ret × Actions :=
  match value with
  | none =>
    let r := s.flushBan env true none
    (if r.2.1 then .raised else .count r.1, r.2.2)
  | some ips =>
    let r := s.removeBannedIPs env net true ifexists ips
    (if r.2.1 ≠ [] then .missing r.2.1 else .count r.1, r.2.2)

/-- The loop over jails (server.py 541-543) -/
def unbanLoop (envs : String → Env) (net : Fid → Option (Fid → Bool)) (ifexists : Bool) (value : Option (List Fid)) : Jails → Nat → Ret × Jails
  | [], cnt => (.count cnt, [])
  | (n, s) :: rest, cnt =>
    let x := unbanJail (envs n) net ifexists value s
    match x.1 with
    | .count k =>
      let r := unbanLoop envs net ifexists value rest (cnt + k)
      (r.1, (n, x.2) :: r.2)
    | e => (e, (n, x.2) :: rest)

/-- Replacement of a jail -/
def update (js : Jails) (name : String) (f : Actions → Actions) : Jails := js.map (fun j => if j.1 = name then (j.1, f j.2) else j)

/-- `setUnbanIP(name, value, ifexists)` (server.py 531-544) -/
def setUnbanIP (envs : String → Env) (net : Fid → Option (Fid → Bool)) (js : Jails) (name : Option String) (value : Option (List Fid)) (ifexists : Bool) :
    Ret × Jails :=
  match name with
  | none => unbanLoop envs net true value js 0
  | some n =>
    match js.find? (fun j => j.1 == n) with
    | none => (.unknown, js)
    | some j =>
      let r := unbanJail (envs n) net ifexists value j.2
      (r.1, update js n (fun _ => r.2))

/-- The command `unban` (transmitter.py 112-118) -/
def unban (envs : String → Env) (net : Fid → Option (Fid → Bool)) (js : Jails) (args : List Fid) : Ret × Jails :=
  if args = ["--all"] then setUnbanIP envs net js none none true else setUnbanIP envs net js none (some args) true

/-- What `getBanned(ids)` returns (actions.py 214-220) -/
inductive Banned where
  | list (l : List Fid)
  | flag (n : Nat)
  | flags (l : List Nat)
deriving DecidableEq

/-- `getBanned(ids)` (actions.py 214-220) -/
def getBanned (s : Actions) (ids : List Fid) : Banned :=
  match ids with
  | [] => .list (s.bm.getBanList false)
  | [x] => .flag (if (s.bm.getBanList false).contains x then 1 else 0)
  | ids => .flags (s.getBanned ids)

/-- What `banned` of the server returns -/
inductive Answer where
  /-- of one jail -/
  | jail (b : Banned)
  /-- names of jails for each id -/
  | names (l : List (List String))
  /-- lists of all jails -/
  | all (l : List (String × Banned))
  /-- `UnknownJailException` -/
  | unknown
deriving DecidableEq

/-- `banned(name, ids)` (server.py 546-569) -/
def banned (js : Jails) (name : Option String) (ids : List Fid) : Answer :=
  match name with
  | none =>
    if ids ≠ [] then .names (ids.map (fun ip => (js.filter (fun j => decide (getBanned j.2 [ip] = .flag 1))).map (·.1)))
    else .all (js.map (fun j => (j.1, getBanned j.2 ids)))
  | some n =>
    match js.find? (fun j => j.1 == n) with
    | none => .unknown
    | some j => .jail (getBanned j.2 ids)

/-- Insertion by name -/
def insertBy (j : String × Actions) : Jails → Jails
  | [] => [j]
  | k :: js => if j.1 < k.1 then j :: k :: js else k :: insertBy j js

/-- `sorted(self.__jails.items())` (server.py 613); names are different, so only they are compared -/
def sorted (js : Jails) : Jails := js.foldl (fun r j => insertBy j r) []

/-- `status()` (server.py 610-630): number of jails, their names; with `--all` also the state of each (failed part not modelled) -/
def status (js : Jails) (all : Bool) : Nat × List String × List (String × Nat × Nat × List Fid) :=
  let l := sorted js
  (l.length, l.map (·.1), if all then l.map (fun j => (j.1, j.2.status)) else [])

end Verif.AllJails
