import Verif.Lemmas.Journal

/-!
# Monitoring of the systemd journal: matches (C77) and lines of entries (C78)
-/

namespace Verif

open Verif.Journal Verif.JournalSpec

/-! ## C77 -/

/-- After any commands the reader gives the entries wanted by the matches that are shown. -/
theorem C77_given (valid : String → Bool) (s : Matches) (h : Reached valid s) (e : List String) :
    s.reader.gives e = true ↔ Wanted s.shown e := by
  rw [(reached_inv h).ext]
  exact gives_state s.shown e

/-- Each list of words is in exactly one way a list of matches with `+` in between. -/
theorem C77_words (m : List String) : ∃ ts, ts ≠ [] ∧ Plain ts ∧ withPlus ts = m ∧ ∀ us, us ≠ [] → Plain us → withPlus us = m → us = ts := by
  obtain ⟨ts, h1, h2, h3⟩ := exists_withPlus m
  refine ⟨ts, h1, h2, h3, fun us g1 g2 g3 => ?_⟩
  rw [← split_withPlus us g1 g2, g3, ← h3, split_withPlus ts h1 h2]

/-- Valid matches are added at the end. -/
theorem C77_added (valid : String → Bool) (s : Matches) (h : Reached valid s) (ts : List (List String)) (ht : ts ≠ []) (hp : Plain ts) (hv : AllValid valid ts) :
    (s.add valid (withPlus ts)).2 = true ∧ (s.add valid (withPlus ts)).1.shown = s.shown ++ ts := by
  have := add_ok valid s.shown ts ht hp hv
  rw [← show s = state s.shown from (reached_inv h).ext] at this
  rw [this]; exact ⟨rfl, rfl⟩

/-- A match that is added widens what is given, if there are matches already. -/
theorem C77_widened (valid : String → Bool) (s : Matches) (h : Reached valid s) (t : List String) (ht : t ≠ []) (hp : "+" ∉ t) (hv : ∀ m ∈ t, valid m = true)
    (hs : ∃ t ∈ s.shown, t ≠ []) (e : List String) :
    (s.add valid t).1.reader.gives e = true ↔ s.reader.gives e = true ∨ Meets t e := by
  have hpl : Plain [t] := by intro x hx; rw [List.mem_singleton.1 hx]; exact hp
  have hva : AllValid valid [t] := by intro x hx; rw [List.mem_singleton.1 hx]; exact hv
  have hs' : s = state s.shown := (reached_inv h).ext
  have := add_ok valid s.shown [t] (by simp) hpl hva
  rw [← hs'] at this
  rw [show t = withPlus [t] from rfl, this, C77_given valid s h e]
  rw [gives_state]
  obtain ⟨u, hu, hu'⟩ := hs
  unfold Wanted
  constructor
  · rintro (hn | ⟨x, hx, hx', hm⟩)
    · exact absurd (hn u (by simp [hu])) hu'
    · rcases List.mem_append.1 hx with hx | hx
      · exact Or.inl (Or.inr ⟨x, hx, hx', hm⟩)
      · rw [List.mem_singleton.1 hx] at hm; exact Or.inr hm
  · rintro ((hn | ⟨x, hx, hx', hm⟩) | hm)
    · exact absurd (hn u hu) hu'
    · exact Or.inr ⟨x, by simp [hx], hx', hm⟩
    · exact Or.inr ⟨t, by simp, ht, hm⟩

/-- If one element is refused, an error is reported and nothing has changed, also for the reader. -/
theorem C77_refused (valid : String → Bool) (s : Matches) (h : Reached valid s) (ts : List (List String)) (ht : ts ≠ []) (hp : Plain ts) (hv : ¬ AllValid valid ts) :
    s.add valid (withPlus ts) = (s, false) := by
  have := add_bad valid s.shown ts ht hp (reached_inv h).good hv
  rw [← show s = state s.shown from (reached_inv h).ext] at this
  exact this

/-- A match that is deleted is removed once; if it is not there, an error is reported and nothing has changed. -/
theorem C77_deleted (valid : String → Bool) (s : Matches) (h : Reached valid s) (m : List String) :
    (m ∈ s.shown → (s.del valid (some m)).2 = true ∧ ∃ a b, m ∉ a ∧ s.shown = a ++ m :: b ∧ (s.del valid (some m)).1.shown = a ++ b) ∧
    (m ∉ s.shown → s.del valid (some m) = (s, false)) := by
  constructor
  · intro hm
    have := del_ok valid s.shown m (reached_inv h).good hm
    rw [← show s = state s.shown from (reached_inv h).ext] at this
    rw [this]
    obtain ⟨a, b, h1, h2, h3⟩ := List.exists_erase_eq hm
    exact ⟨rfl, a, b, h1, h2, h3⟩
  · intro hm
    unfold Matches.del
    dsimp only
    rw [if_neg hm]

/-- On reload all matches are removed, and all entries are given until others are added. -/
theorem C77_cleared (valid : String → Bool) (s : Matches) (h : Reached valid s) :
    (s.del valid none).2 = true ∧ (s.del valid none).1.shown = [] ∧ ∀ e, (s.del valid none).1.reader.gives e = true := by
  have := clear_ok valid s.shown
  rw [← show s = state s.shown from (reached_inv h).ext] at this
  rw [this]
  exact ⟨rfl, rfl, fun e => (gives_state [] e).2 (Or.inl (fun t ht => by simp at ht))⟩

/-- Deleting with the words of a command with `+` always fails, although the same words were accepted before. -/
theorem C77_refuted_plus (valid : String → Bool) (s : Matches) (h : Reached valid s) (m : List String) (hm : "+" ∈ m) :
    s.del valid (some m) = (s, false) :=
  (C77_deleted valid s h m).2 (fun hs => (reached_inv h).plain m hs hm)

/-- Deleting the only match makes the jail read all entries. -/
theorem C77_refuted_last (valid : String → Bool) (s : Matches) (h : Reached valid s) (m : List String) (hs : s.shown = [m]) (e : List String) :
    (s.del valid (some m)).1.reader.gives e = true := by
  have := del_ok valid s.shown m (reached_inv h).good (by simp [hs])
  rw [← show s = state s.shown from (reached_inv h).ext] at this
  rw [this, gives_state, hs]
  exact Or.inl (fun t ht => by simp at ht)

/-! ## C78 -/

/-- The line of an entry is what is before the message and the message, on one line; its time is the one of the source if there is one. Only entries of the kernel without monotonic time have none. -/
theorem C78_line (int0 : List Char → Option Int) (e : Entry) :
    (program int0 e = some "kernel:".toList ∧ e.mono = none → format int0 e = none) ∧
    (¬ (program int0 e = some "kernel:".toList ∧ e.mono = none) → ∃ l t, format int0 e = some (l, t) ∧ OneLine (head int0 e ++ body e) l ∧
      (∀ s, e.source = some s → t = s) ∧ (e.source = none → t = e.received)) := by
  have hbody : e.text = body e := by
    unfold Entry.text body
    match e.message with
    | none => rfl
    | some (.one s) => rfl
    | some (.list []) => rfl
    | some (.list (a :: l)) => exact joinSpace_cons a l
  have htime : (∀ s, e.source = some s → e.time = s) ∧ (e.source = none → e.time = e.received) := by
    unfold Entry.time
    cases e.source with
    | none => exact ⟨fun s h => (by cases h), fun _ => rfl⟩
    | some x => exact ⟨fun s h => Option.some.inj h, fun h => (by cases h)⟩
  have hpid : firstText [(pidText int0 e.syslogPid).map (fun p => '[' :: p ++ [']']), (pidText int0 e.pid).map (fun p => '[' :: p ++ [']'])] =
      e.process.map (showPid int0) := by
    rw [firstText_brackets, ← showPid_eq, ← showPid_eq]
    unfold Entry.process
    cases pid? e.syslogPid <;> rfl
  have hels : e.host = (firstText [e.hostname]).toList := by
    unfold Entry.host
    rw [text?_eq]; cases firstText [e.hostname] <;> rfl
  have htag : e.tag = firstText [e.ident, e.comm] := firstText_two _ _
  have hprog : program int0 e = e.tag.map (tagged int0 e) := by
    unfold program tagged
    rw [hpid, htag]
    congr 1
    funext v
    cases e.process <;> simp
  have hfin : ∀ els : List (List Char), els = parts int0 e → ∃ l t, some (escape (joinSpace (els ++ [body e])), e.time) = some (l, t) ∧ OneLine (head int0 e ++ body e) l ∧
      (∀ s, e.source = some s → t = s) ∧ (e.source = none → t = e.received) := by
    rintro els rfl
    refine ⟨_, _, rfl, ?_, htime⟩
    rw [joinSpace_append]
    exact oneLine_escape _
  unfold format
  rw [hbody, hels]
  cases htag : e.tag with
  | none =>
    rw [htag] at hprog
    rw [hprog]
    refine ⟨fun h => (by cases h.1), fun _ => ?_⟩
    dsimp only
    refine hfin _ ?_
    unfold parts
    rw [hprog]; simp
  | some v =>
    rw [htag, Option.map_some] at hprog
    rw [hprog]
    dsimp only
    generalize tagged int0 e v = w at hprog
    by_cases hk : w = "kernel:".toList
    · rw [if_pos hk]
      cases hm : e.mono with
      | none => exact ⟨fun _ => rfl, fun h => absurd ⟨by rw [hk], rfl⟩ h⟩
      | some m =>
        refine ⟨fun h => (by cases h.2), fun _ => ?_⟩
        dsimp only
        refine hfin _ ?_
        unfold parts
        rw [hprog, if_pos (by rw [hk]), hm]; simp
    · rw [if_neg hk]
      refine ⟨fun h => absurd (Option.some.inj h.1) hk, fun _ => ?_⟩
      dsimp only
      refine hfin _ ?_
      unfold parts
      rw [hprog, if_neg (fun h => hk (Option.some.inj h))]; simp

/-- The message has no influence on what is before it, and nothing follows it: whatever the message is, the line has the same beginning without an end of line, and then the message on one line. -/
theorem C78_message (int0 : List Char → Option Int) (e : Entry) : ∃ h, '\n' ∉ h ∧ ∀ msg l t, format int0 { e with message := msg } = some (l, t) →
    ∃ b, l = h ++ b ∧ OneLine (body { e with message := msg }) b := by
  refine ⟨escape (head int0 e), escape_no _, fun msg l t hf => ?_⟩
  have key := C78_line int0 { e with message := msg }
  have hh : head int0 { e with message := msg } = head int0 e := rfl
  rw [hh] at key
  by_cases hk : program int0 { e with message := msg } = some "kernel:".toList ∧ e.mono = none
  · rw [key.1 hk] at hf; cases hf
  · obtain ⟨l', t', h1, h2, _⟩ := key.2 hk
    rw [h1] at hf
    injection hf with hf
    injection hf with hl _
    subst hl
    refine ⟨escape (body { e with message := msg }), ?_, oneLine_escape _⟩
    rw [← escape_append]
    have uniq : ∀ ls : List (List Char), (∀ x ∈ ls, '\n' ∉ x) → ls ≠ [] → escape (List.intercalate ['\n'] ls) = List.intercalate ['\\', 'n'] ls := by
      intro ls
      induction ls with
      | nil => intro _ h; exact absurd rfl h
      | cons a ls ih =>
        intro h _
        cases ls with
        | nil => simpa [List.intercalate] using escape_plain a (h a (by simp))
        | cons b ls =>
          have e1 : ∀ (sep : List Char), List.intercalate sep (a :: b :: ls) = a ++ (sep ++ List.intercalate sep (b :: ls)) := by
            intro sep; simp [List.intercalate]
          rw [e1, e1, escape_append, escape_append, escape_plain a (h a (by simp)), ih (fun x hx => h x (by simp [hx])) (by simp)]
          rfl
    obtain ⟨_, ls, g1, g2, g3, g4⟩ := h2
    rw [g4, g3, uniq ls g1 g2]

/-- Different messages can give the same line: an end of a line and the two characters `\n` are not distinguished. -/
theorem C78_refuted_different (int0 : List Char → Option Int) (e : Entry) (a b : List Char) :
    format int0 { e with message := some (.one (a ++ '\n' :: b)) } = format int0 { e with message := some (.one (a ++ '\\' :: 'n' :: b)) } := by
  have h : escape (a ++ '\n' :: b) = escape (a ++ '\\' :: 'n' :: b) := by
    rw [escape_append, escape_append]; congr 1
  have key : ∀ s, format int0 { e with message := some (.one s) } = (format int0 { e with message := none }).map (fun x => (x.1 ++ escape s, x.2)) := by
    intro s
    have tail : ∀ els : List (List Char), some (escape (joinSpace (els ++ [s])), e.time) =
        (some (escape (joinSpace (els ++ [[]])), e.time)).map (fun x => (x.1 ++ escape s, x.2)) := by
      intro els
      rw [joinSpace_append, joinSpace_append, escape_append]
      simp
    unfold format
    show (match (match e.tag with | none => some e.host | some v => if tagged int0 e v = "kernel:".toList then (match e.mono with | some m => some (e.host ++ [tagged int0 e v, m]) | none => none) else some (e.host ++ [tagged int0 e v])) with
      | none => none | some els => some (escape (joinSpace (els ++ [s])), e.time)) =
      Option.map _ (match (match e.tag with | none => some e.host | some v => if tagged int0 e v = "kernel:".toList then (match e.mono with | some m => some (e.host ++ [tagged int0 e v, m]) | none => none) else some (e.host ++ [tagged int0 e v])) with
      | none => none | some els => some (escape (joinSpace (els ++ [[]])), e.time))
    generalize (match e.tag with | none => some e.host | some v => if tagged int0 e v = "kernel:".toList then (match e.mono with | some m => some (e.host ++ [tagged int0 e v, m]) | none => none) else some (e.host ++ [tagged int0 e v])) = q
    cases q with
    | none => rfl
    | some els => exact tail els
  rw [key, key, h]

/-! ## Examples -/

/-- `add_match` wants a `=`. -/
def withEq (m : String) : Bool := m.toList.contains '='

example : let s := noMatches.commands withEq [.add ["_SYSTEMD_UNIT=sshd.service", "+", "_COMM=sshd"], .add ["_COMM=a", "_COMM"], .add ["_UID=0", "_COMM=a", "_COMM=b"], .del ["_SYSTEMD_UNIT=sshd.service"]]
    s.shown = [["_COMM=sshd"], ["_UID=0", "_COMM=a", "_COMM=b"]] ∧ s.reader.gives ["_UID=0", "_COMM=b"] = true ∧ s.reader.gives ["_UID=0", "_COMM=c"] = false ∧
    s.reader.gives ["_SYSTEMD_UNIT=sshd.service"] = false ∧ s.reader.gives ["_COMM=sshd", "X=1"] = true := by
  decide +kernel

example : format (fun _ => none) ⟨some "srv".toList, some [], some "sshd".toList, some (.num 0), some (.num 17), none, some (.one "a\nb".toList), none, 5⟩ =
    some ("srv sshd[17]: a\\nb".toList, 5) := by decide +kernel

example : format (fun _ => none) ⟨some "srv".toList, some "kernel".toList, none, none, none, some "[    1.000000]".toList, some (.list ["a".toList, "b".toList]), some 3, 5⟩ =
    some ("srv kernel: [    1.000000] a b".toList, 3) := by decide +kernel

end Verif
