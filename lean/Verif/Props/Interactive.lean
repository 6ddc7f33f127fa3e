import Verif.Spec.Interactive
import Verif.Props.Client

/-!
# C124 — interactive mode of the client
-/

namespace Verif.Interactive

open InteractiveSpec
open Verif.Client

variable {σ : Type}

private theorem line_leave (split : String → Option (List String)) (l : String) (h : l = "exit" ∨ l = "quit") :
    line split l = .leave := by unfold line; rw [if_pos h]

private theorem before_leave (l : String) (ls : List String) (h : l = "exit" ∨ l = "quit") : before (l :: ls) = [] := by
  unfold before; rw [List.takeWhile_cons_of_neg]; rcases h with rfl | rfl <;> decide

private theorem before_cons (l : String) (ls : List String) (h : ¬(l = "exit" ∨ l = "quit")) : before (l :: ls) = l :: before ls := by
  unfold before
  rw [List.takeWhile_cons_of_pos]
  simp only [not_or] at h
  simp [h.1, h.2]

/-- Executed commands and the end: every command before the first `exit` or `quit` is executed, in order, each in the
state the previous one left, whether those before succeeded or not. The exit code is 0 exactly if the session was left. -/
theorem C124_session (w : World σ) (conf : Conf) (split : String → Option (List String)) (input : List String) (s : σ) (evs : List Ev) (n : Nat) :
    ∃ evs', (session w conf split input s evs n).events = evs ++ evs' ∧
      Executed w conf (commands split (before input)) s (session w conf split input s evs n).state evs' ∧
      (session w conf split input s evs n).code = (if "exit" ∈ input ∨ "quit" ∈ input then 0 else 255) ∧
      (session w conf split input s evs n).usages = n + ((before input).filter (fun l => l == "help")).length := by
  induction input generalizing s evs n with
  | nil => exact ⟨[], by simp [session], .none s, by simp [session], by simp [session, before]⟩
  | cons l ls ih =>
    unfold session
    by_cases h : l = "exit" ∨ l = "quit"
    · rw [line_leave split l h, before_leave l ls h]
      refine ⟨[], by simp, .none s, ?_, by simp⟩
      rw [if_pos]
      rcases h with rfl | rfl <;> simp
    · have hc : ("exit" ∈ l :: ls ∨ "quit" ∈ l :: ls) ↔ ("exit" ∈ ls ∨ "quit" ∈ ls) := by
        simp only [List.mem_cons]
        constructor
        · rintro ((e | e) | (e | e))
          · exact absurd (Or.inl e.symm) h
          · exact Or.inl e
          · exact absurd (Or.inr e.symm) h
          · exact Or.inr e
        · rintro (e | e)
          · exact Or.inl (Or.inr e)
          · exact Or.inr (Or.inr e)
      rw [before_cons l ls h]
      simp only [hc]
      by_cases hh : l = "help"
      · have : line split l = .help := by unfold line; rw [if_neg h, if_pos hh]
        rw [this]
        obtain ⟨e, h1, h2, h3, h4⟩ := ih s evs (n + 1)
        refine ⟨e, h1, ?_, h3, ?_⟩
        · rw [show commands split (l :: before ls) = commands split (before ls) from by simp [commands, hh]]; exact h2
        · rw [h4, hh]; simp; omega
      · have hu : ((l :: before ls).filter (fun l => l == "help")).length = ((before ls).filter (fun l => l == "help")).length := by
          simp [hh]
        rw [hu]
        by_cases he : l = ""
        · have : line split l = .empty := by unfold line; rw [if_neg h, if_neg hh, if_pos he]
          rw [this]
          rw [show commands split (l :: before ls) = commands split (before ls) from by simp [commands, he]]
          exact ih s evs n
        · cases hs : split l with
          | none =>
            have : line split l = .wrong := by unfold line; rw [if_neg h, if_neg hh, if_neg he, hs]
            rw [this]
            rw [show commands split (l :: before ls) = commands split (before ls) from by simp [commands, he, hh, hs]]
            exact ih s evs n
          | some ws =>
            have : line split l = .command ws := by unfold line; rw [if_neg h, if_neg hh, if_neg he, hs]
            rw [this]
            rw [show commands split (l :: before ls) = ws :: commands split (before ls) from by simp [commands, he, hh, hs]]
            obtain ⟨e, h1, h2, h3, h4⟩ := ih (processCommand w conf ws s).2.1 (evs ++ (processCommand w conf ws s).2.2) n
            exact ⟨(processCommand w conf ws s).2.2 ++ e, by rw [h1, List.append_assoc], .one h2, h3, h4⟩

/-- What commands do is determined. -/
theorem C124_determined (w : World σ) (conf : Conf) (cs : List (List String)) (s u u' : σ) (evs evs' : List Ev)
    (h : Executed w conf cs s u evs) (h' : Executed w conf cs s u' evs') : u = u' ∧ evs = evs' := by
  induction h generalizing u' evs' with
  | none s => cases h'; exact ⟨rfl, rfl⟩
  | one _ ih =>
    cases h' with
    | one h'' => obtain ⟨rfl, rfl⟩ := ih _ _ h''; exact ⟨rfl, rfl⟩

/-- Arguments are the first command: the session begins only if it succeeds, and a failure gives 255 without reading input. -/
theorem C124_first (w : World σ) (conf : Conf) (split : String → Option (List String)) (args input : List String) (s : σ) :
    (args = [] → start w conf split args input s = session w conf split input s [] 0) ∧
    (args ≠ [] → (processCommand w conf args s).1 = true → start w conf split args input s =
      session w conf split input (processCommand w conf args s).2.1 (processCommand w conf args s).2.2 0) ∧
    (args ≠ [] → (processCommand w conf args s).1 = false → (start w conf split args input s).code = 255 ∧
      (start w conf split args input s).usages = 0 ∧
      Executed w conf [args] s (start w conf split args input s).state (start w conf split args input s).events) := by
  refine ⟨fun h => ?_, fun h h1 => ?_, fun h h1 => ?_⟩
  · unfold start; rw [if_pos h]
  · unfold start; rw [if_neg h, if_pos h1]
  · unfold start
    rw [if_neg h, h1]
    refine ⟨rfl, rfl, ?_⟩
    have := Executed.one (c := args) (Executed.none (w := w) (conf := conf) (processCommand w conf args s).2.1)
    rwa [List.append_nil] at this

/-- The exit code of a session says nothing about its commands: it is the same for all servers and all answers. -/
theorem C124_code (w w' : World σ) (conf conf' : Conf) (split split' : String → Option (List String)) (input : List String) (s s' : σ) :
    (start w conf split [] input s).code = (start w' conf' split' [] input s').code := by
  rw [(C124_first w conf split [] input s).1 rfl, (C124_first w' conf' split' [] input s').1 rfl]
  obtain ⟨_, _, _, h, _⟩ := C124_session w conf split input s [] 0
  obtain ⟨_, _, _, h', _⟩ := C124_session w' conf' split' input s' [] 0
  rw [h, h']

/-! ### Examples and counterexamples -/

/-- Splitting at blanks, for examples. -/
private def blanks (s : String) : Option (List String) :=
  if s = "status sshd" then some ["status", "sshd"] else if s = " exit" then some ["exit"] else if s = "   " then some []
  else if s = "\"" then none else some [s]

-- a wrong line, help and a failing command do not end the session, and after the stop commands fail
example : let e := start (exampleWorld true) exampleConf blanks [] ["\"", "help", "nonsense", "status sshd", "stop", "", "ping", "quit", "start"] (true, 0)
    e.code = 0 ∧ e.usages = 1 ∧ e.state = (false, 1) ∧ e.events =
    [.send (.words ["nonsense"]), .outErr (.words ["nonsense"]) "Invalid command", .send (.words ["status", "sshd"]),
     .out (.words ["status", "sshd"]) "fine", .send (.words ["stop"]), .out (.words ["stop"]) "None", .send (.words ["ping"])] := by
  decide +kernel

example : (start (exampleWorld true) exampleConf blanks ["nonsense"] ["stop", "exit"] (true, 0)) =
    ⟨255, (true, 0), [.send (.words ["nonsense"]), .outErr (.words ["nonsense"]) "Invalid command"], 0⟩ := by decide +kernel

/-- A session whose commands all failed ends with 0, one that ends with the input gives 255 although all succeeded. -/
theorem C124_refuted_code :
    (start (exampleWorld true) exampleConf blanks [] ["nonsense", "exit"] (true, 0)).code = 0 ∧
    (processCommand (exampleWorld true) exampleConf ["nonsense"] (true, 0)).1 = false ∧
    (start (exampleWorld true) exampleConf blanks [] ["status"] (true, 0)).code = 255 ∧
    (processCommand (exampleWorld true) exampleConf ["status"] (true, 0)).1 = true := by decide +kernel

/-- `exit` with a blank before it is sent to the server, a line of blanks is sent as empty command. -/
theorem C124_refuted_blank :
    (start (exampleWorld true) exampleConf blanks [] [" exit", "   "] (true, 0)).events =
      [.send (.words ["exit"]), .out (.words ["exit"]) "fine", .send (.words []), .out (.words []) "fine"] := by decide +kernel

end Verif.Interactive
