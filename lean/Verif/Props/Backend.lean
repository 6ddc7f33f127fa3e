import Verif.Model.Backend
import Verif.Props.Options

/-! # Properties of the choice of backends (C102) and of the database (C103) -/

set_option linter.unusedSimpArgs false

namespace Verif.Spec.Backend

open Verif.Backend Verif.Options Verif.Regex

/-- Place of a backend in the order of preference -/
def place : Backend → Nat
  | .pyinotify => 0
  | .polling => 1
  | .systemd => 2

/-- What is asked for by a name, in any case: `none` is the automatic choice -/
def Asks (h : Host) (name : Str) : Option Backend → Prop
  | none => h.lower name = "auto".toList
  | some b => h.lower name = b.name

/-- Backends that may be used: all, or the one asked for and those after it -/
def May (a : Option Backend) (b : Backend) : Prop := ∀ c, a = some c → place c ≤ place b

/-- The first one that may be used and can be imported -/
def First (h : Host) (a : Option Backend) (b : Backend) : Prop :=
  May a b ∧ h.imports b = true ∧ ∀ c, May a c → place c < place b → h.imports c = false

/-- It starts: only that of the journal has options -/
def Starts (h : Host) (opts : Dict Str Str) (b : Backend) : Prop := h.creates b opts = true ∧ (opts.items ≠ [] → b = .systemd)

end Verif.Spec.Backend

namespace Verif.Backend

open Verif.Options Verif.Regex Verif.Spec.Backend

theorem all_backends {P : Backend → Prop} : (∀ b, P b) ↔ P .pyinotify ∧ P .polling ∧ P .systemd :=
  ⟨fun h => ⟨h _, h _, h _⟩, fun h b => by cases b; exact h.1; exact h.2.1; exact h.2.2⟩

theorem some_backend {P : Backend → Prop} : (∃ b, P b) ↔ P .pyinotify ∨ P .polling ∨ P .systemd :=
  ⟨fun ⟨b, h⟩ => by cases b <;> simp [h], fun h => h.elim (⟨_, ·⟩) (fun h => h.elim (⟨_, ·⟩) (⟨_, ·⟩))⟩

theorem name_inj {a b : Backend} (h : a.name = b.name) : a = b := by
  cases a <;> cases b <;> first | rfl | (exact absurd h (by decide))

theorem name_ne_auto (b : Backend) : b.name ≠ "auto".toList := by cases b <;> decide

theorem asks_unique {h : Host} {name : Str} {a b : Option Backend} (ha : Asks h name a) (hb : Asks h name b) : a = b := by
  cases a <;> cases b
  · rfl
  · exact absurd (hb.symm.trans ha) (name_ne_auto _)
  · exact absurd (ha.symm.trans hb) (name_ne_auto _)
  · exact congrArg some (name_inj (ha.symm.trans hb))

/-- What is tried -/
def tried : Option Backend → List Backend
  | none => backends
  | some .pyinotify => backends
  | some .polling => [.polling, .systemd]
  | some .systemd => [.systemd]

theorem setBackend_asks (cc : Chars) (h : Host) (text name : Str) (opts : Dict Str Str) (a : Option Backend)
    (hx : extractOptions cc text = some (name, opts)) (ha : Asks h name a) : setBackend cc h text = loop h opts a (tried a) := by
  unfold setBackend
  rw [hx]
  dsimp only
  cases a with
  | none => rw [if_pos (show h.lower name = "auto".toList from ha)]; rfl
  | some b =>
    have hn : ¬ h.lower name = "auto".toList := by intro e; exact name_ne_auto b (ha.symm.trans e)
    rw [if_neg hn, show h.lower name = b.name from ha]
    cases b <;> rfl

theorem setBackend_none (cc : Chars) (h : Host) (text name : Str) (opts : Dict Str Str)
    (hx : extractOptions cc text = some (name, opts)) (ha : ∀ a, ¬ Asks h name a) : setBackend cc h text = (.unknown, [(.error, none)]) := by
  unfold setBackend
  rw [hx]
  dsimp only
  rw [if_neg (show ¬ h.lower name = "auto".toList from ha none)]
  have : backends.find? (fun b => decide (b.name = h.lower name)) = none := by
    rw [List.find?_eq_none]
    intro b _
    simpa using fun e => ha (some b) e.symm
  rw [this]

theorem init_ok (h : Host) (b : Backend) (opts : Dict Str Str) : init h b opts = .ok ↔ h.imports b = true ∧ Starts h opts b := by
  unfold init Starts
  cases hi : h.imports b <;> cases b <;> cases hc : h.creates _ opts <;> cases ho : opts.items <;> simp_all
theorem init_raised (h : Host) (b : Backend) (opts : Dict Str Str) : init h b opts = .raised ↔ h.imports b = true ∧ ¬ Starts h opts b := by
  unfold init Starts
  cases hi : h.imports b <;> cases b <;> cases hc : h.creates _ opts <;> cases ho : opts.items <;> simp_all
theorem init_import (h : Host) (b : Backend) (opts : Dict Str Str) : init h b opts = .importError ↔ h.imports b = false := by
  unfold init
  cases hi : h.imports b <;> cases b <;> cases hc : h.creates _ opts <;> cases ho : opts.items <;> simp_all

/-- What the three backends do -/
theorem three (h : Host) (opts : Dict Str Str) (b : Backend) :
    (init h b opts = .ok ∧ h.imports b = true ∧ Starts h opts b) ∨ (init h b opts = .raised ∧ h.imports b = true ∧ ¬ Starts h opts b) ∨
      (init h b opts = .importError ∧ h.imports b = false) := by
  cases hi : init h b opts
  · exact .inl ⟨rfl, (init_ok h b opts).mp hi⟩
  · exact .inr (.inr ⟨rfl, (init_import h b opts).mp hi⟩)
  · exact .inr (.inl ⟨rfl, (init_raised h b opts).mp hi⟩)

theorem loop_uses (h : Host) (opts : Dict Str Str) (a : Option Backend) (b : Backend) :
    (loop h opts a (tried a)).1 = .uses b ↔ First h a b ∧ Starts h opts b := by
  unfold First May
  simp only [all_backends]
  rcases three h opts .pyinotify with ⟨h1, i1, s1⟩ | ⟨h1, i1, s1⟩ | ⟨h1, i1⟩ <;> rcases three h opts .polling with ⟨h2, i2, s2⟩ | ⟨h2, i2, s2⟩ | ⟨h2, i2⟩ <;>
    rcases three h opts .systemd with ⟨h3, i3, s3⟩ | ⟨h3, i3, s3⟩ | ⟨h3, i3⟩ <;> rcases a with _ | _ | _ | _ <;> cases b <;>
    simp_all [loop, tried, backends, place]

theorem loop_nothing (h : Host) (opts : Dict Str Str) (a : Option Backend) :
    (loop h opts a (tried a)).1 = .nothing ↔ ∀ b, May a b → h.imports b = false := by
  unfold May
  simp only [all_backends]
  rcases three h opts .pyinotify with ⟨h1, i1, s1⟩ | ⟨h1, i1, s1⟩ | ⟨h1, i1⟩ <;> rcases three h opts .polling with ⟨h2, i2, s2⟩ | ⟨h2, i2, s2⟩ | ⟨h2, i2⟩ <;>
    rcases three h opts .systemd with ⟨h3, i3, s3⟩ | ⟨h3, i3, s3⟩ | ⟨h3, i3⟩ <;> rcases a with _ | _ | _ | _ <;>
    simp_all [loop, tried, backends, place]

theorem loop_raised (h : Host) (opts : Dict Str Str) (a : Option Backend) :
    (loop h opts a (tried a)).1 = .raised ↔ ∃ b, First h a b ∧ ¬ Starts h opts b := by
  unfold First May
  simp only [all_backends, some_backend]
  rcases three h opts .pyinotify with ⟨h1, i1, s1⟩ | ⟨h1, i1, s1⟩ | ⟨h1, i1⟩ <;> rcases three h opts .polling with ⟨h2, i2, s2⟩ | ⟨h2, i2, s2⟩ | ⟨h2, i2⟩ <;>
    rcases three h opts .systemd with ⟨h3, i3, s3⟩ | ⟨h3, i3, s3⟩ | ⟨h3, i3⟩ <;> rcases a with _ | _ | _ | _ <;>
    simp_all [loop, tried, backends, place]

theorem loop_unknown (h : Host) (opts : Dict Str Str) (a : Option Backend) (l : List Backend) : (loop h opts a l).1 ≠ .unknown := by
  induction l with
  | nil => simp [loop]
  | cons b l ih => unfold loop; split <;> simp [ih]

/-- C102: a jail uses a backend exactly if it is the first (in the order pyinotify, polling, systemd, from the one asked for on) that can be imported, and
it starts -/
theorem C102_uses (cc : Chars) (h : Host) (text name : Str) (opts : Dict Str Str) (a : Option Backend) (b : Backend)
    (hx : extractOptions cc text = some (name, opts)) (ha : Asks h name a) :
    (setBackend cc h text).1 = .uses b ↔ First h a b ∧ Starts h opts b := by
  rw [setBackend_asks cc h text name opts a hx ha, loop_uses]

/-- C102: so one that is asked for and can be used is used -/
theorem C102_asked (cc : Chars) (h : Host) (text name : Str) (opts : Dict Str Str) (b : Backend)
    (hx : extractOptions cc text = some (name, opts)) (ha : h.lower name = b.name) (hi : h.imports b = true) (hs : Starts h opts b) :
    (setBackend cc h text).1 = .uses b := by
  rw [C102_uses cc h text name opts (some b) b hx ha]
  refine ⟨⟨fun c hc => by cases hc; exact Nat.le_refl _, hi, fun c hc hlt => ?_⟩, hs⟩
  have := hc b rfl
  omega

/-- C102: only if none of those can be imported, the jail has no backend -/
theorem C102_nothing (cc : Chars) (h : Host) (text name : Str) (opts : Dict Str Str) (a : Option Backend)
    (hx : extractOptions cc text = some (name, opts)) (ha : Asks h name a) :
    (setBackend cc h text).1 = .nothing ↔ ∀ b, May a b → h.imports b = false := by
  rw [setBackend_asks cc h text name opts a hx ha, loop_nothing]

/-- C102: if the first one that can be imported does not start, its exception is raised, no other is tried -/
theorem C102_raised (cc : Chars) (h : Host) (text name : Str) (opts : Dict Str Str) (a : Option Backend)
    (hx : extractOptions cc text = some (name, opts)) (ha : Asks h name a) :
    (setBackend cc h text).1 = .raised ↔ ∃ b, First h a b ∧ ¬ Starts h opts b := by
  rw [setBackend_asks cc h text name opts a hx ha, loop_raised]

/-- C102: names that are not known (and only these, and texts that are no options) are refused -/
theorem C102_unknown (cc : Chars) (h : Host) (text : Str) :
    (setBackend cc h text).1 = .unknown ↔ ∀ name opts, extractOptions cc text = some (name, opts) → ∀ a, ¬ Asks h name a := by
  cases hx : extractOptions cc text with
  | none => simp [setBackend, hx]
  | some r =>
    obtain ⟨name, opts⟩ := r
    constructor
    · intro hu n o he a ha
      cases he
      rw [setBackend_asks cc h text name opts a hx ha] at hu
      exact loop_unknown h opts a _ hu
    · intro hn
      rw [setBackend_none cc h text name opts hx (hn name opts rfl)]

/-- C102: options are only for the journal: with options the jail uses the journal or nothing -/
theorem C102_options (cc : Chars) (h : Host) (text name : Str) (opts : Dict Str Str) (b : Backend)
    (hx : extractOptions cc text = some (name, opts)) (ho : opts.items ≠ []) (hu : (setBackend cc h text).1 = .uses b) : b = .systemd := by
  by_cases hn : ∃ a, Asks h name a
  · obtain ⟨a, ha⟩ := hn
    exact ((C102_uses cc h text name opts a b hx ha).mp hu).2.2 ho
  · have := (C102_unknown cc h text).mpr (fun n o he a ha => by rw [hx] at he; cases he; exact hn ⟨a, ha⟩)
    rw [this] at hu
    cases hu

/-- C102: what is logged: an error for each backend that was asked for, or is after that, and could not be imported before the one in use (only for debugging if
the choice is automatic); a warning if another one than asked for is in use -/
theorem C102_log (cc : Chars) (h : Host) (text name : Str) (opts : Dict Str Str) (a : Option Backend) (b : Backend)
    (hx : extractOptions cc text = some (name, opts)) (ha : Asks h name a) :
    ((.warning, some b) ∈ (setBackend cc h text).2 ↔ (setBackend cc h text).1 = .uses b ∧ a ≠ none ∧ a ≠ some b) ∧
    ((.info, some b) ∈ (setBackend cc h text).2 ↔ (setBackend cc h text).1 = .uses b ∧ (a = none ∨ a = some b)) ∧
    ((.error, some b) ∈ (setBackend cc h text).2 ↔ a ≠ none ∧ May a b ∧ ∀ c, May a c → place c ≤ place b → h.imports c = false) ∧
    ((.debug, some b) ∈ (setBackend cc h text).2 ↔ a = none ∧ ∀ c, place c ≤ place b → h.imports c = false) ∧
    ((.error, none) ∈ (setBackend cc h text).2 ↔ (setBackend cc h text).1 = .nothing) := by
  rw [setBackend_asks cc h text name opts a hx ha]
  unfold May
  simp only [all_backends]
  rcases three h opts .pyinotify with ⟨h1, i1, s1⟩ | ⟨h1, i1, s1⟩ | ⟨h1, i1⟩ <;> rcases three h opts .polling with ⟨h2, i2, s2⟩ | ⟨h2, i2, s2⟩ | ⟨h2, i2⟩ <;>
    rcases three h opts .systemd with ⟨h3, i3, s3⟩ | ⟨h3, i3, s3⟩ | ⟨h3, i3⟩ <;> rcases a with _ | _ | _ | _ <;> cases b <;>
    simp_all [loop, tried, backends, place]

/-- A host with all of them; letters are Latin ones -/
def host0 : Host := { lower := List.map Char.toLower, imports := fun _ => true, creates := fun _ _ => true }

def chars0 : Chars := { space := fun c => c = ' ' || c = '\n', word := fun c => c.isAlphanum || c = '_' }

-- automatic choice; the one asked for; asked for but not there; options
example : setBackend chars0 host0 "auto".toList = (.uses .pyinotify, [(.info, some .pyinotify)]) := by decide +kernel
example : setBackend chars0 host0 "Polling".toList = (.uses .polling, [(.info, some .polling)]) := by decide +kernel
example : setBackend chars0 { host0 with imports := fun b => b == .polling } "pyinotify".toList =
    (.uses .polling, [(.error, some .pyinotify), (.warning, some .polling)]) := by decide +kernel
example : setBackend chars0 { host0 with imports := fun b => b == .polling } "systemd".toList = (.nothing, [(.error, some .systemd), (.error, none)]) := by decide +kernel
example : setBackend chars0 host0 "gamin".toList = (.unknown, [(.error, none)]) := by decide +kernel
example : setBackend chars0 host0 "systemd[journalpath=/x]".toList = (.uses .systemd, [(.info, some .systemd)]) := by decide +kernel
example : setBackend chars0 host0 "auto[journalpath=/x]".toList = (.raised, []) := by decide +kernel

/-- C102, what does not hold: that with the automatic choice a jail has a backend if one of them works. A backend that can be imported but not started (for
example no more inotify instances) ends the search. -/
theorem C102_refuted_fallback : ∃ h : Host, h.imports .polling = true ∧ Starts h Dict.empty .polling ∧
    (setBackend chars0 h "auto".toList).1 = .raised := by
  refine ⟨{ host0 with creates := fun b _ => b == .polling }, rfl, ⟨rfl, fun h => absurd rfl h⟩, by decide +kernel⟩

/-! ## Database -/

/-- C103: while there are jails the database is not changed, neither that of the server nor that of the observer; only what is in use already is accepted -/
theorem C103_jails (lower : Str → Str) (sqlite : Bool) (file : Str → File) (s : Server) (f : Str) (hj : s.jails ≠ 0) :
    (setDatabase lower sqlite file s f).2 = s ∧
    ((setDatabase lower sqlite file s f).1 = .ok ↔ s.db = some f ∨ s.db = none ∧ lower f = "none".toList) ∧
    ((setDatabase lower sqlite file s f).1 ≠ .ok → (setDatabase lower sqlite file s f).1 = .refused) := by
  unfold setDatabase
  dsimp only
  generalize "none".toList = w
  by_cases h1 : s.db = some f
  · simp [h1]
  · by_cases h2 : s.db = none ∧ lower f = w
    · simp only [h1, h2, if_true, if_false]; simp [h2]
    · simp [h1, h2, hj]

/-- C103: what the server and the observer use after it was accepted: the file, or none of them if so asked (or there is no sqlite) -/
theorem C103_accepted (lower : Str → Str) (sqlite : Bool) (file : Str → File) (s : Server) (f : Str)
    (hok : (setDatabase lower sqlite file s f).1 = .ok) (hs : s.db ≠ some f) :
    let s' := (setDatabase lower sqlite file s f).2
    (lower f = "none".toList → s'.db = none) ∧ (lower f ≠ "none".toList → sqlite = true → s'.db = some f ∧ file f = .opens) ∧
    (lower f ≠ "none".toList → sqlite = false → s'.db = s.db) ∧ s'.jails = s.jails ∧ (s'.observer.isSome = s.observer.isSome) := by
  intro s'
  revert hok
  show _ → (_ → s'.db = _) ∧ _
  simp only [s']
  unfold setDatabase
  dsimp only
  generalize "none".toList = w
  rw [if_neg hs]
  by_cases h2 : s.db = none ∧ lower f = w
  · rw [if_pos h2]; simp [h2]
  · rw [if_neg h2]
    by_cases hj : s.jails = 0
    · rw [if_neg (by simpa using hj)]
      by_cases h3 : lower f = w
      · rw [if_pos h3]; simp only [h3]; simp
      · rw [if_neg h3]
        cases sqlite
        · simp [h3]
        · cases hf : file f <;> simp [h3, hf]
    · rw [if_pos hj]; simp

/-- C103: a file that cannot be opened changes nothing -/
theorem C103_broken (lower : Str → Str) (sqlite : Bool) (file : Str → File) (s : Server) (f : Str)
    (hr : (setDatabase lower sqlite file s f).1 = .raised) (hf : file f = .broken) : (setDatabase lower sqlite file s f).2 = s := by
  revert hr
  unfold setDatabase
  dsimp only
  repeat' split
  all_goals simp_all

/-- C103: entering it again changes nothing -/
theorem C103_again (lower : Str → Str) (file : Str → File) (file' : Str → File) (s : Server) (f : Str) (hok : (setDatabase lower true file s f).1 = .ok) :
    setDatabase lower true file' (setDatabase lower true file s f).2 f = (.ok, (setDatabase lower true file s f).2) := by
  by_cases hs : s.db = some f
  · simp [setDatabase, hs]
  · obtain ⟨h1, h2, -⟩ := C103_accepted lower true file s f hok hs
    generalize (setDatabase lower true file s f).2 = t at h1 h2
    unfold setDatabase
    dsimp only
    by_cases h3 : lower f = "none".toList
    · rw [if_neg (by rw [h1 h3]; simp), if_pos ⟨h1 h3, h3⟩]
    · rw [if_pos (h2 h3 rfl).1]

/-- Observer and server use the same -/
def Same (s : Server) : Prop := ∀ o, s.observer = some o → o = s.db

/-- C103: after any history of commands and jails, observer and server use the same database; as long as the jails of no file that was opened failed to be
disabled -/
theorem C103_same (lower : Str → Str) (sqlite : Bool) (l : List Op) (s : Server) (hs : Same s)
    (hl : ∀ o ∈ l, ∀ file f, o = .set' file f → file f ≠ .readOnly) : Same (runDb lower sqlite s l).2 := by
  induction l generalizing s with
  | nil => exact hs
  | cons o l ih =>
    have hl' : ∀ o ∈ l, ∀ file f, o = .set' file f → file f ≠ .readOnly := fun o ho => hl o (by simp [ho])
    cases o with
    | jails n => exact ih _ hs hl'
    | set' file f =>
      refine ih _ ?_ hl'
      have hf := hl _ (by simp) file f rfl
      unfold setDatabase
      dsimp only
      repeat' split
      all_goals first
        | exact hs
        | (rename_i h; exact absurd h hf)
        | (intro o ho; cases hob : s.observer <;> simp_all)

/-- C103: so once there are jails the database stays, until there are none again -/
theorem C103_kept (lower : Str → Str) (sqlite : Bool) (l : List Op) (s : Server) (hs : s.jails ≠ 0) (hl : Op.jails 0 ∉ l) :
    (runDb lower sqlite s l).2.db = s.db ∧ (runDb lower sqlite s l).2.observer = s.observer := by
  induction l generalizing s with
  | nil => exact ⟨rfl, rfl⟩
  | cons o l ih =>
    have hl' : Op.jails 0 ∉ l := fun h => hl (by simp [h])
    cases o with
    | jails n =>
      have hn : n ≠ 0 := by rintro rfl; exact hl (by simp)
      exact ih { s with jails := n } hn hl'
    | set' file f =>
      have e := (C103_jails lower sqlite file s f hs).1
      have := ih s hs hl'
      show (runDb lower sqlite (setDatabase lower sqlite file s f).2 l).2.db = _ ∧ (runDb lower sqlite (setDatabase lower sqlite file s f).2 l).2.observer = _
      rw [e]
      exact this

/-- C103, what does not hold: that observer and server always use the same. A file that can be read but not written is in use by the server after the
exception, the observer uses what was before. -/
theorem C103_refuted_same : ∃ (file : Str → File) (s : Server), Same s ∧
    (setDatabase id true file s "x".toList).1 = .raised ∧ ¬ Same (setDatabase id true file s "x".toList).2 := by
  refine ⟨fun _ => .readOnly, ⟨none, some none, 0⟩, by simp [Same], by decide, ?_⟩
  intro h
  exact absurd (h none (by decide)) (by decide)

-- start, with a jail, all jails gone
example : runDb (List.map Char.toLower) true ⟨none, some none, 0⟩
    [.set' (fun _ => .opens) "a.db".toList, .jails 1, .set' (fun _ => .opens) "b.db".toList, .set' (fun _ => .opens) "a.db".toList, .jails 0, .set' (fun _ => .broken) "c.db".toList,
      .set' (fun _ => .opens) "None".toList] =
    ([.ok, .refused, .ok, .raised, .ok], ⟨none, some none, 0⟩) := by decide

end Verif.Backend
