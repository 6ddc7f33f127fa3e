import Verif.Model.Actions
import Verif.Spec.BanManager

/-! # Vocabulary for the properties of the actions of a jail -/

namespace Verif.Spec.Act

open Verif

/-- Which actions execute a ban: all, except those marked `norestored` if the ban is a restored one. -/
def banners (acts : List (String × Action)) (restored : Bool) : List String :=
  (acts.filter (fun kv => !(restored && kv.2.norestored))).map Prod.fst

/-- What happens for one new ban: the observer is told (not for restored bans), the ban is logged and every eligible
action bans, in configured order. -/
def banCalls (acts : List (String × Action)) (observer : Bool) (t : Ticket) : List Call :=
  (if observer = true ∧ t.restored = false then [Call.banFound t.id] else []) ++
    Call.logBan t.id t.restored :: (banners acts t.restored).map (fun a => Call.ban a t.id)

/-- One unban per address and action. -/
def unbanCalls (acts : List String) (ids : List Fid) : List Call :=
  ids.flatMap (fun x => acts.map (fun a => Call.unban a x))

/-- The call is a flush. -/
def isFlush : Call → Bool
  | .flush _ => true
  | _ => false

/-- The call is a flush or a consistency check. -/
def isFlushOrCheck : Call → Bool
  | .flush _ => true
  | .check _ => true
  | _ => false

/-- The properties of an action that never change. -/
def static (a : Action) : Action := { a with banEpoch := 0 }

/-- configured actions, without their epochs -/
def config (s : Actions) : List (String × Action) := s.actions.items.map (fun kv => (kv.1, static kv.2))

/-- `x` is banned with action `a`, as far as the commands executed tell, given the calls in reversed order: the last one
that matters was a ban (or re-ban) of `x`, and not an unban of `x` or a flush that succeeded (returned true). -/
def appliedRev (env : Env) (a : String) (x : Fid) : List Call → Bool
  | [] => false
  | .ban b y :: rest => if b = a ∧ y = x then true else appliedRev env a x rest
  | .reban b y :: rest => if b = a ∧ y = x then true else appliedRev env a x rest
  | .unban b y :: rest => if b = a ∧ y = x then false else appliedRev env a x rest
  | .flush b :: rest =>
    if b = a ∧ (env ((Call.flush b :: rest).reverse)).raised = false ∧ (env ((Call.flush b :: rest).reverse)).ret = true
    then false else appliedRev env a x rest
  | _ :: rest => appliedRev env a x rest

/-- `x` is banned with action `a` as far as the commands executed so far tell. -/
def applied (env : Env) (a : String) (x : Fid) (trace : List Call) : Bool := appliedRev env a x trace.reverse

/-- Operations on a running jail. -/
inductive JailOp where
  /-- tickets of the queue or of an explicit ban command -/
  | ban (now : Int) (tickets : List Ticket)
  /-- expiry check -/
  | expire (now : Int) (maxCount : Nat)
  /-- explicit unban of addresses, subnets, names -/
  | unban (net : Fid → Option (Fid → Bool)) (db ifexists : Bool) (ips : List Fid)
  /-- explicit unban of everything -/
  | flush (db : Bool)
  /-- prolongation by the observer -/
  | prolong (ticket : Ticket)
  /-- change of the default ban time -/
  | setBanTime (value : Int)
  /-- change of the ban time of a stored ticket by the observer -/
  | setTicketBanTime (fid : Fid) (value : Int)

/-- State after an operation. -/
def JailOp.step (env : Env) (s : Actions) : JailOp → Actions
  | .ban now ts => (Actions.checkBanLoop env now ts [] 0 s).2.2.2
  | .expire now n => (s.checkUnBan env now n).2
  | .unban net db ife ips => (s.removeBannedIPs env net db ife ips).2.2
  | .flush db => (s.flushBan env db none).2.2
  | .prolong t => s.prolongBan env t
  | .setBanTime v => { s with bm := { s.bm with banTime := v } }
  | .setTicketBanTime fid v => s.updTicket fid (fun t => t.setBanTime v)

end Verif.Spec.Act
