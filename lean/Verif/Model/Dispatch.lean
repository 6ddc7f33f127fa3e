import Verif.Py.Dict

/-!
# Dispatch of events to connections — `fail2ban/compat/asyncore.py` (76-188)

One call of `poll` (with `select`) or `poll2`, which the event loop of the server repeats (`asyncserver.py` 144-189). The
objects (listening server, connections) and what their handlers do are arbitrary: a handler changes its own object, may
close it, may open further connections, and may raise an exception. Results of the operating system are arbitrary.

Simplified: a handler changes no other object that exists already, and an object once closed does not come back
(`del_channel`, lines 271-278, forgets the number). Errors of `readable` and `writable` are not modelled.
-/

namespace Verif.Dispatch

/-- How a handler ends. -/
inductive Out where
  | ok
  /-- an `OSError` with this code -/
  | os (errno : Int)
  /-- one of `_reraised_exceptions` (line 79) -/
  | exit
  /-- any other exception -/
  | other
deriving DecidableEq, Repr

/-- What a handler does. -/
structure Res (C : Type) where
  /-- the object afterwards -/
  obj : C
  /-- it is still in the map -/
  isOpen : Bool := true
  /-- connections accepted meanwhile -/
  new : List (Nat × C) := []
  out : Out := .ok

/-- Methods of objects. -/
structure Env (C : Type) where
  readable : C → Bool
  writable : C → Bool
  accepting : C → Bool
  /-- `handle_read_event` -/
  read : C → Res C
  /-- `handle_write_event` -/
  write : C → Res C
  /-- `handle_expt_event` -/
  expt : C → Res C
  /-- `handle_close` -/
  close : C → Res C
  /-- `handle_error` -/
  error : C → Res C

variable {C : Type}

/-- The connections that a handler has opened are added (`add_channel`, lines 265-269). -/
def accepted (m : Dict Nat C) (l : List (Nat × C)) : Dict Nat C := l.foldl (fun m p => m.insert p.1 p.2) m

/-- The map after a handler of the object with number `fd`. -/
def store (m : Dict Nat C) (fd : Nat) (r : Res C) : Dict Nat C :=
  accepted (if r.isOpen then m.insert fd r.obj else m.erase fd) r.new

/-- A further handler after one with result `r`: a closed object stays closed. -/
def next (m : Dict Nat C) (fd : Nat) (r r' : Res C) : Dict Nat C :=
  if r.isOpen then store m fd r' else accepted m r'.new

/-- `read`, `write`, `_exception` (lines 81-103): an exception is given to `handle_error`. The flag tells whether an
exception leaves the function. -/
def guarded (env : Env C) (h : C → Res C) (m : Dict Nat C) (fd : Nat) (c : C) : Dict Nat C × Bool :=
  match (h c).out with
  | .ok => (store m fd (h c), false)
  | .exit => (store m fd (h c), true)
  | _ => (next (store m fd (h c)) fd (h c) (env.error (h c).obj), decide ((env.error (h c).obj).out ≠ .ok))

/-- One of the loops over ready numbers (lines 144-162): numbers that are not in the map (any more) are skipped, an exception
ends the pass. -/
def phase (env : Env C) (h : C → Res C) : List Nat → Dict Nat C → Dict Nat C × Bool
  | [], m => (m, false)
  | fd :: l, m =>
    match m.get? fd with
    | none => phase env h l m
    | some c => if (guarded env h m fd c).2 then guarded env h m fd c else phase env h l (guarded env h m fd c).1

/-- Numbers that `select` is asked for: reading, writing, exceptional conditions (lines 129-138). -/
structure Asked where
  r : List Nat
  w : List Nat
  e : List Nat
deriving DecidableEq

def asked (env : Env C) (m : Dict Nat C) : Asked where
  r := (m.items.filter (fun p => env.readable p.2)).map Prod.fst
  w := (m.items.filter (fun p => env.writable p.2 && !env.accepting p.2)).map Prod.fst
  e := (m.items.filter (fun p => env.readable p.2 || env.writable p.2)).map Prod.fst

/-- The three loops (lines 144-162). -/
def serve (env : Env C) (a : Asked) (m : Dict Nat C) : Dict Nat C × Bool :=
  let x := phase env env.read a.r m
  if x.2 then x
  else
    let y := phase env env.write a.w x.1
    if y.2 then y else phase env env.expt a.e y.1

/-- `poll` (lines 125-162); `none` of `select` is an exception. -/
def poll (env : Env C) (select : Asked → Option Asked) (m : Dict Nat C) : Dict Nat C × Bool :=
  if asked env m = ⟨[], [], []⟩ then (m, false)
  else match select (asked env m) with
    | none => (m, true)
    | some a => serve env a m

/-- What `poll` of the operating system reports: POLLIN, POLLOUT, POLLPRI, one of POLLHUP, POLLERR and POLLNVAL. -/
structure Flags where
  inn : Bool := false
  out : Bool := false
  pri : Bool := false
  bad : Bool := false
deriving DecidableEq

/-- `_DISCONNECTED` (lines 59-60): ECONNRESET, ENOTCONN, ESHUTDOWN, ECONNABORTED, EPIPE, EBADF with their numbers of Linux -/
def disconnected : List Int := [104, 107, 108, 103, 32, 9]

/-- The handlers that `readwrite` calls one after another (lines 107-114). -/
def handlers (env : Env C) (f : Flags) : List (C → Res C) :=
  (if f.inn then [env.read] else []) ++ (if f.out then [env.write] else []) ++ (if f.pri then [env.expt] else []) ++
  (if f.bad then [env.close] else [])

/-- Calls of handlers for one object, until one raises an exception; the object is used even if it was closed. -/
def chain : List (C → Res C) → Dict Nat C → Nat → Res C → Dict Nat C × Res C
  | [], m, _, r => (m, r)
  | h :: hs, m, fd, r =>
    let r' := h r.obj
    let m' := next m fd r r'
    if r'.out = .ok then chain hs m' fd ⟨r'.obj, r.isOpen && r'.isOpen, [], .ok⟩
    else (m', ⟨r'.obj, r.isOpen && r'.isOpen, [], r'.out⟩)

/-- `readwrite` (lines 105-123) -/
def readwrite (env : Env C) (f : Flags) (m : Dict Nat C) (fd : Nat) (c : C) : Dict Nat C × Bool :=
  let x := chain (handlers env f) m fd ⟨c, true, [], .ok⟩
  match x.2.out with
  | .ok => (x.1, false)
  | .exit => (x.1, true)
  | .os e =>
    if e ∈ disconnected then (next x.1 fd x.2 (env.close x.2.obj), decide ((env.close x.2.obj).out ≠ .ok))
    else (next x.1 fd x.2 (env.error x.2.obj), decide ((env.error x.2.obj).out ≠ .ok))
  | .other => (next x.1 fd x.2 (env.error x.2.obj), decide ((env.error x.2.obj).out ≠ .ok))

/-- The loop of `poll2` over the results (lines 182-186). -/
def serve2 (env : Env C) : List (Nat × Flags) → Dict Nat C → Dict Nat C × Bool
  | [], m => (m, false)
  | (fd, f) :: l, m =>
    match m.get? fd with
    | none => serve2 env l m
    | some c => if (readwrite env f m fd c).2 then readwrite env f m fd c else serve2 env l (readwrite env f m fd c).1

/-- The numbers that are registered with their flags (lines 172-180): reading stands for POLLIN and POLLPRI. -/
def registered (env : Env C) (m : Dict Nat C) : List (Nat × Bool × Bool) :=
  (m.items.map (fun p => (p.1, env.readable p.2, env.writable p.2 && !env.accepting p.2))).filter (fun x => x.2.1 || x.2.2)

/-- `poll2` (lines 164-186); `none` of the operating system is an exception. -/
def poll2 (env : Env C) (os : List (Nat × Bool × Bool) → Option (List (Nat × Flags))) (m : Dict Nat C) : Dict Nat C × Bool :=
  if m.items = [] then (m, false)
  else match os (registered env m) with
    | none => (m, true)
    | some l => serve2 env l m

end Verif.Dispatch
