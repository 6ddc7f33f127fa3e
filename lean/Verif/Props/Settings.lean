import Verif.Lemmas.Settings

set_option linter.unusedSimpArgs false

/-!
# C88, C89 — settings of jails at run time
-/

namespace Verif

open Verif.Settings Verif.SettingsSpec Verif.SettingsLemmas

/-! ## C88 -/

/-- A command changes only what it is for: all other settings of all jails are shown as before. -/
theorem C88_only (env : Env) (s : Server) (c : Cmd) (name g : String) (h : ¬ Touches name g c) :
    getCmd env (exec env s c).2 name [g] = getCmd env s name [g] := by
  have key : ∀ (n : String) (j j' : Jail), s n = some j → (name = n → shown j' g = shown j g) → getCmd env (put s n j') name [g] = getCmd env s name [g] := by
    intro n j j' hs hg
    unfold getCmd
    by_cases hn : name = n
    · subst hn
      simp [put, hs, hg rfl]
    · simp [put, hn]
  cases c with
  | get n a => rfl
  | set q n a =>
    unfold exec setCmd
    cases a with
    | nil => dsimp only; split <;> rfl
    | cons opt vs =>
      dsimp only
      split
      · rfl
      · cases hs : s n with
        | none => rfl
        | some j =>
          dsimp only
          split
          · rfl
          · apply key n j _ hs
            intro hn
            have hc : g ∉ changes opt := fun hm => h ⟨hn.symm, hm⟩
            unfold setArgs
            split
            · rename_i ho
              obtain ⟨l, hl⟩ := addIgnores_shape env vs j
              rw [hl]
              subst ho
              simp [changes] at hc
              simp [shown, hc]
            · cases vs with
              | nil => rfl
              | cons v _ => exact setOne_frame env j opt v g hc
  | multiSet n f vs =>
    unfold exec multiSet
    dsimp only
    cases hs : s n with
    | none => rfl
    | some j =>
      apply key n j _ hs
      intro hn
      have hc : g ≠ (if f then "failregex" else "ignoreregex") := fun hm => h ⟨hn.symm, hm⟩
      cases f with
      | true =>
        obtain ⟨k, _, hk, _⟩ := addAll_fail env vs j
        simp at hc ⊢
        rw [hk]
        simp [shown, hc]
      | false =>
        obtain ⟨k, _, hk, _⟩ := addAll_ignore env vs j
        simp at hc ⊢
        rw [hk]
        simp [shown, hc]

/-- A setting is shown the same until a command for it comes. -/
theorem C88_persists (env : Env) (name g : String) : ∀ (cs : List Cmd) (s : Server), (∀ c ∈ cs, ¬ Touches name g c) → getCmd env (run env s cs) name [g] = getCmd env s name [g]
  | [], _, _ => rfl
  | c :: cs, s, h => by
    unfold run
    rw [C88_persists env name g cs _ (fun c hc => h c (List.mem_cons_of_mem _ hc)), C88_only env s c name g (h c List.mem_cons_self)]

/-- What an accepted `set` replies is what `get` shows from then on. -/
theorem C88_reply (env : Env) (s : Server) (name opt : String) (vs : List String) (v : Val) (h1 : opt ∉ others) (h2 : opt ≠ "idle") (hn : name ∉ serverSet)
    (h : (setCmd env false s name (opt :: vs)).1 = some v) :
    getCmd env (setCmd env false s name (opt :: vs)).2 name [if opt = "addignoreip" ∨ opt = "delignoreip" then "ignoreip" else
      if opt = "addfailregex" ∨ opt = "delfailregex" then "failregex" else if opt = "addignoreregex" ∨ opt = "delignoreregex" then "ignoreregex" else opt] = some v := by
  have hg : name ∉ serverGet := fun hm => hn (by simp [serverGet] at hm; simp [serverSet]; rcases hm with h | h | h | h | h | h | h <;> simp [h])
  have er : (if opt = "addignoreip" ∨ opt = "delignoreip" then "ignoreip" else
      if opt = "addfailregex" ∨ opt = "delfailregex" then "failregex" else if opt = "addignoreregex" ∨ opt = "delignoreregex" then "ignoreregex" else opt) = replied opt := by
    unfold replied; simp only [Bool.or_eq_true, decide_eq_true_eq]
  rw [er]
  unfold setCmd at h ⊢
  rw [if_neg (by simpa using hn)] at h ⊢
  dsimp only at h ⊢
  cases hs : s name with
  | none => rw [hs] at h; cases h
  | some j =>
    rw [hs] at h
    dsimp only at h ⊢
    rw [if_neg (by simpa using h1)] at h ⊢
    generalize (setArgs env j opt vs) = r at h ⊢
    dsimp only at h ⊢
    unfold getCmd
    rw [if_neg (by simpa using hg)]
    cases hr : r.1 with
    | false => rw [hr] at h; simp at h
    | true =>
      rw [hr] at h
      simp [h2] at h
      simp [put, h]

/-- Replies do not matter: a command in a stream (`quiet`) has the same effect. -/
theorem C88_quiet (env : Env) (s : Server) (name : String) (args : List String) : (setCmd env true s name args).2 = (setCmd env false s name args).2 := by
  unfold setCmd
  split
  · rfl
  · cases args with
    | nil => rfl
    | cons opt vs =>
      dsimp only
      cases s name with
      | none => rfl
      | some j => dsimp only; split <;> rfl

/-- A command for an unknown jail fails and changes nothing. -/
theorem C88_unknown (env : Env) (q : Bool) (s : Server) (name : String) (args : List String) (hn : name ∉ serverSet) (h : s name = none) :
    setCmd env q s name args = (none, s) ∧ (name ∉ serverGet → getCmd env s name args = none) := by
  constructor
  · unfold setCmd
    rw [if_neg (by simpa using hn)]
    cases args with
    | nil => rfl
    | cons opt vs => dsimp only; rw [h]
  · intro hg
    unfold getCmd
    rw [if_neg (by simpa using hg)]
    cases args with
    | nil => rfl
    | cons opt vs => dsimp only; rw [h]

/-- A refused command changes nothing at all, except for `addignoreip` with several values and `bantime.*`. -/
theorem C88_refused (env : Env) (q : Bool) (s : Server) (name opt : String) (vs : List String) (h1 : opt ∉ others) (h2 : ∀ o, opt ≠ "bantime." ++ o)
    (h3 : opt = "addignoreip" → vs.length ≤ 1) (hr : ∀ j, s name = some j → (setCmd env true s name (opt :: vs)).1 = none) (hn : name ∉ serverSet) :
    (setCmd env q s name (opt :: vs)).2 = s := by
  have hq : (setCmd env q s name (opt :: vs)).2 = (setCmd env true s name (opt :: vs)).2 := by
    cases q
    · rw [C88_quiet]
    · rfl
  rw [hq]
  unfold setCmd at hr ⊢
  rw [if_neg (by simpa using hn)] at hr ⊢
  dsimp only at hr ⊢
  cases hs : s name with
  | none => rfl
  | some j =>
    have hr := hr j hs
    rw [hs] at hr
    dsimp only at hr ⊢
    rw [if_neg (by simpa using h1)] at hr ⊢
    dsimp only at hr ⊢
    have he : extraName opt = none := by
      cases he : extraName opt with
      | none => rfl
      | some o => exact absurd ((extraName_iff opt o).mp he) (h2 o)
    have hsame : (setArgs env j opt vs).2 = j := by
      have hf : (setArgs env j opt vs).1 = false := by
        generalize (setArgs env j opt vs) = r at hr ⊢
        cases hr1 : r.1
        · rfl
        · rw [hr1] at hr; simp at hr
      unfold setArgs at hf ⊢
      split at hf
      · rename_i ho
        rw [if_pos ho]
        have hl := h3 ho
        match vs, hl with
        | [], _ => rfl
        | [v], _ =>
          unfold addIgnores at hf ⊢
          cases hv : env.addIgnore j.ignoreIp v with
          | none => rfl
          | some l => rw [hv] at hf; simp [addIgnores] at hf
      · rename_i ho
        rw [if_neg ho]
        cases vs with
        | nil => rfl
        | cons v _ => exact setOne_failed env j opt v he hf
    rw [hsame]
    exact put_same s name j hs

/-- Numbers, durations and words: when they are accepted, and what is shown then. -/
theorem C88_values (env : Env) (j : Jail) (v : String) :
    (setOne env j "maxretry" v = match env.int v with | some n => (true, { j with maxRetry := n }) | none => (false, j)) ∧
    (setOne env j "maxmatches" v = match env.int v with | some n => (true, { j with maxMatches := n }) | none => (false, j)) ∧
    (∀ n, env.int v = some n → 1 ≤ n → setOne env j "maxlines" v = (true, { j with maxLines := n })) ∧
    (env.int v = none ∨ (∃ n, env.int v = some n ∧ n < 1) → setOne env j "maxlines" v = (false, j)) ∧
    (∀ q, env.seconds v = some q → setOne env j "findtime" v = (true, { j with findTime := q, maxTime := q }) ∧
      ∃ n, setOne env j "bantime" v = (true, { j with banTime := n }) ∧ n = Int.tdiv q.num q.den) ∧
    (env.seconds v = none → setOne env j "findtime" v = (false, j) ∧ setOne env j "bantime" v = (false, j)) ∧
    (∃ w, setOne env j "usedns" v = (true, { j with useDns := w }) ∧ (env.lower v ∈ ["yes", "warn", "no", "raw"] → w = env.lower v) ∧ (env.lower v ∉ ["yes", "warn", "no", "raw"] → w = "no")) ∧
    (∃ b, setOne env j "ignoreself" v = (true, { j with ignoreSelf := b }) ∧ (b = true ↔ env.lower v = "1" ∨ env.lower v = "on" ∨ env.lower v = "true" ∨ env.lower v = "yes")) ∧
    (setOne env j "ignorecommand" v = (true, { j with ignoreCommand := .str v })) ∧
    (env.lower v = "auto" → env.okCodec env.preferEnc = true → setOne env j "logencoding" v = (true, { j with encoding := env.preferEnc })) ∧
    (env.lower v ≠ "auto" → env.okCodec v = true → setOne env j "logencoding" v = (true, { j with encoding := v })) ∧
    (env.lower v ≠ "auto" → env.okCodec v = false → setOne env j "logencoding" v = (false, j)) ∧
    (setOne env j "logtimezone" v).1 = env.okZone v ∧
    ((setOne env j "logtimezone" v).1 = true → (setOne env j "logtimezone" v).2 = { j with timeZone := some v, detectorZone := some v }) ∧
    ((setOne env j "prefregex" v).1 = true ↔ v = "" ∨ env.okRegex j.useDns v = true) ∧
    ((setOne env j "prefregex" v).1 = true → (setOne env j "prefregex" v).2 = { j with prefRegex := if v = "" then none else some v }) := by
  refine ⟨?_, ?_, ?_, ?_, ?_, ?_, ?_, ?_, ?_, ?_, ?_, ?_, ?_, ?_, ?_, ?_⟩
  · simp only [setOne]; cases env.int v <;> simp [orFail]
  · simp only [setOne]; cases env.int v <;> simp [orFail]
  · intro n h hn
    simp [setOne, h]
    omega
  · rintro (h | ⟨n, h, hn⟩)
    · simp [setOne, h]
    · simp [setOne, h]
      omega
  · intro q h
    exact ⟨by simp [setOne, h, orFail], _, by simp [setOne, h, orFail]; rfl, rfl⟩
  · intro h
    simp [setOne, h, orFail]
  · refine ⟨useDnsOf env v, by simp [setOne], fun h => ?_, fun h => ?_⟩
    · unfold useDnsOf; rw [if_pos (by simpa using h)]
    · unfold useDnsOf; rw [if_neg (by simpa using h)]
  · refine ⟨asBool env v, by simp [setOne], by simp [asBool]⟩
  · simp [setOne]
  · intro h1 h2; simp [setOne, h1, h2]
  · intro h1 h2; simp [setOne, h1, h2]
  · intro h1 h2; simp [setOne, h1, h2]
  · simp only [setOne]; cases hz : env.okZone v <;> simp
  · intro h
    simp only [setOne] at h ⊢
    cases hz : env.okZone v
    · simp [hz] at h
    · simp
  · simp only [setOne]
    by_cases hv : v = ""
    · simp [hv]
    · cases hz : env.okRegex j.useDns v <;> simp [hv]
  · intro h
    simp only [setOne] at h ⊢
    by_cases hv : v = ""
    · simp [hv]
    · cases hz : env.okRegex j.useDns v
      · simp [hv, hz] at h
      · simp [hv]

theorem set_get (env : Env) (q : Bool) (s : Server) (name opt g v : String) (j j' : Jail) (x : Val) (hn : name ∉ serverSet) (hs : s name = some j) (ho : opt ∉ others) (ha : opt ≠ "addignoreip")
    (h1 : setOne env j opt v = (true, j')) (h2 : shown j' g = some x) : getCmd env (setCmd env q s name [opt, v]).2 name [g] = some x := by
  have hg : name ∉ serverGet := fun hm => hn (by simp [serverGet] at hm; simp [serverSet]; rcases hm with h | h | h | h | h | h | h <;> simp [h])
  unfold setCmd
  rw [if_neg (by simpa using hn)]
  simp only [hs]
  rw [if_neg (by simpa using ho)]
  unfold setArgs
  rw [if_neg ha]
  simp only [h1]
  unfold getCmd
  rw [if_neg (by simpa using hg)]
  simp [put, h2]

/-- What is set is shown, in the form of the setting. -/
theorem C88_round_trip (env : Env) (q : Bool) (s : Server) (name v : String) (j : Jail) (hn : name ∉ serverSet) (hs : s name = some j) :
    (∀ n, env.int v = some n →
      getCmd env (setCmd env q s name ["maxretry", v]).2 name ["maxretry"] = some (.int n) ∧
      getCmd env (setCmd env q s name ["maxmatches", v]).2 name ["maxmatches"] = some (.int n) ∧
      (1 ≤ n → getCmd env (setCmd env q s name ["maxlines", v]).2 name ["maxlines"] = some (.int n))) ∧
    (∀ t, env.seconds v = some t →
      getCmd env (setCmd env q s name ["findtime", v]).2 name ["findtime"] = some (.num t) ∧
      getCmd env (setCmd env q s name ["bantime", v]).2 name ["bantime"] = some (.int (Int.tdiv t.num t.den))) ∧
    (env.lower v ∈ ["yes", "warn", "no", "raw"] → getCmd env (setCmd env q s name ["usedns", v]).2 name ["usedns"] = some (.str (env.lower v))) ∧
    (getCmd env (setCmd env q s name ["ignoreself", v]).2 name ["ignoreself"] = some (.bool (decide (env.lower v ∈ ["1", "on", "true", "yes"])))) ∧
    (getCmd env (setCmd env q s name ["ignorecommand", v]).2 name ["ignorecommand"] = some (.str v)) ∧
    (env.lower v ≠ "auto" → env.okCodec v = true → getCmd env (setCmd env q s name ["logencoding", v]).2 name ["logencoding"] = some (.str v)) ∧
    (env.okZone v = true → getCmd env (setCmd env q s name ["logtimezone", v]).2 name ["logtimezone"] = some (.str v)) ∧
    (v = "" ∨ env.okRegex j.useDns v = true → getCmd env (setCmd env q s name ["prefregex", v]).2 name ["prefregex"] = some (.str v)) ∧
    (env.okFail j.prefRegex (decide (1 < j.maxLines)) j.useDns v = true →
      getCmd env (setCmd env q s name ["addfailregex", v]).2 name ["failregex"] = some (.strs (j.failRegex ++ [v]))) ∧
    (env.okRegex j.useDns v = true → getCmd env (setCmd env q s name ["addignoreregex", v]).2 name ["ignoreregex"] = some (.strs (j.ignoreRegex ++ [v]))) ∧
    (∀ p, env.pattern v = some p → getCmd env (setCmd env q s name ["datepattern", v]).2 name ["datepattern"] = some p) ∧
    (∀ c, env.cache v = some c → getCmd env (setCmd env q s name ["ignorecache", v]).2 name ["ignorecache"] = some c) ∧
    (∀ l, env.addIgnore j.ignoreIp v = some l → getCmd env (setCmd env q s name ["addignoreip", v]).2 name ["ignoreip"] = some (.strs l)) ∧
    (∀ l, env.delIgnore j.ignoreIp v = some l → getCmd env (setCmd env q s name ["delignoreip", v]).2 name ["ignoreip"] = some (.strs l)) ∧
    (∀ o, getCmd env (setCmd env q s name ["bantime." ++ o, v]).2 name ["bantime." ++ o] = some (((setExtra env j.extra o v).2 o).getD .none)) := by
  refine ⟨fun n h => ⟨?_, ?_, fun hp => ?_⟩, fun t h => ⟨?_, ?_⟩, fun h => ?_, ?_, ?_, fun h1 h2 => ?_, fun h => ?_, fun h => ?_, fun h => ?_, fun h => ?_, fun p h => ?_, fun c h => ?_, fun l h => ?_, fun l h => ?_,
    fun o => ?_⟩
  · exact set_get env q s name _ _ v j { j with maxRetry := n } _ hn hs (by decide) (by decide) (by simp [setOne, h, orFail]) (by simp [shown])
  · exact set_get env q s name _ _ v j { j with maxMatches := n } _ hn hs (by decide) (by decide) (by simp [setOne, h, orFail]) (by simp [shown])
  · exact set_get env q s name _ _ v j { j with maxLines := n } _ hn hs (by decide) (by decide) (by simp [setOne, h]; omega) (by simp [shown])
  · exact set_get env q s name _ _ v j { j with findTime := t, maxTime := t } _ hn hs (by decide) (by decide) (by simp [setOne, h, orFail]) (by simp [shown])
  · exact set_get env q s name _ _ v j { j with banTime := Int.tdiv t.num t.den } _ hn hs (by decide) (by decide) (by simp [setOne, h, orFail, truncate]) (by simp [shown])
  · exact set_get env q s name _ _ v j { j with useDns := env.lower v } _ hn hs (by decide) (by decide)
      (by have e : useDnsOf env v = env.lower v := by unfold useDnsOf; rw [if_pos (by simpa using h)]
          simp [setOne, e]) (by simp [shown])
  · exact set_get env q s name _ _ v j { j with ignoreSelf := asBool env v } _ hn hs (by decide) (by decide) (by simp [setOne]) (by simp [shown, asBool])
  · exact set_get env q s name _ _ v j { j with ignoreCommand := .str v } _ hn hs (by decide) (by decide) (by simp [setOne]) (by simp [shown])
  · exact set_get env q s name _ _ v j { j with encoding := v } _ hn hs (by decide) (by decide) (by simp [setOne, h1, h2]) (by simp [shown])
  · exact set_get env q s name _ _ v j { j with timeZone := some v, detectorZone := some v } _ hn hs (by decide) (by decide) (by simp [setOne, h]) (by simp [shown])
  · by_cases hv : v = ""
    · exact set_get env q s name _ _ v j { j with prefRegex := none } _ hn hs (by decide) (by decide) (by simp [setOne, hv]) (by simp [shown, hv])
    · have h := h.resolve_left hv
      exact set_get env q s name _ _ v j { j with prefRegex := some v } _ hn hs (by decide) (by decide) (by simp [setOne, hv, h]) (by simp [shown])
  · exact set_get env q s name _ _ v j { j with failRegex := j.failRegex ++ [v] } _ hn hs (by decide) (by decide) (by simp [setOne, addFailRegex, h]) (by simp [shown])
  · exact set_get env q s name _ _ v j { j with ignoreRegex := j.ignoreRegex ++ [v] } _ hn hs (by decide) (by decide) (by simp [setOne, addIgnoreRegex, h]) (by simp [shown])
  · exact set_get env q s name _ _ v j { j with datePattern := p, detectorZone := j.timeZone } _ hn hs (by decide) (by decide) (by simp [setOne, h, orFail]) (by simp [shown])
  · exact set_get env q s name _ _ v j { j with ignoreCache := c } _ hn hs (by decide) (by decide) (by simp [setOne, h, orFail]) (by simp [shown])
  · have hg : name ∉ serverGet := fun hm => hn (by simp [serverGet] at hm; simp [serverSet]; rcases hm with h | h | h | h | h | h | h <;> simp [h])
    unfold setCmd
    rw [if_neg (by simpa using hn)]
    simp only [hs]
    rw [if_neg (by decide)]
    unfold getCmd
    rw [if_neg (by simpa using hg)]
    simp [put, setArgs, addIgnores, h, shown]
  · exact set_get env q s name _ _ v j { j with ignoreIp := l } _ hn hs (by decide) (by decide) (by simp [setOne, h, orFail]) (by simp [shown])
  · have hg : name ∉ serverGet := fun hm => hn (by simp [serverGet] at hm; simp [serverSet]; rcases hm with h | h | h | h | h | h | h <;> simp [h])
    have he := (extraName_iff ("bantime." ++ o) o).mpr rfl
    have hne : ∀ w : String, w.toList.take 8 ≠ "bantime.".toList → "bantime." ++ o ≠ w := by
      rintro w hw rfl
      apply hw
      simp [String.toList_append]
    have ho : "bantime." ++ o ∉ others := by
      intro hm
      simp only [others, List.mem_cons, List.not_mem_nil, or_false] at hm
      rcases hm with h | h | h | h | h | h | h | h | h | h <;> exact hne _ (by decide) h
    have e1 : setOne env j ("bantime." ++ o) v = ((setExtra env j.extra o v).1, { j with extra := (setExtra env j.extra o v).2 }) := by
      unfold setOne
      iterate 19 rw [if_neg (hne _ (by decide))]
      rw [he]
    have e2 : ∀ be : String → Option Val, shown { j with extra := be } ("bantime." ++ o) = some ((be o).getD .none) := by
      intro be
      unfold shown
      iterate 16 rw [if_neg (hne _ (by decide))]
      rw [he]
    unfold setCmd
    rw [if_neg (by simpa using hn)]
    simp only [hs]
    rw [if_neg (by simpa using ho)]
    unfold setArgs
    rw [if_neg (hne _ (by decide))]
    simp only [e1]
    unfold getCmd
    rw [if_neg (by simpa using hg)]
    simp [put, e2]

/-- `idle` switches the filter and the actions of the jail. -/
theorem C88_idle (env : Env) (j : Jail) (v : String) :
    (v = "on" → setOne env j "idle" v = (true, { j with filterIdle := true, actionsIdle := true })) ∧
    (v = "off" → setOne env j "idle" v = (true, { j with filterIdle := false, actionsIdle := false })) ∧
    (v ≠ "on" → v ≠ "off" → setOne env j "idle" v = (false, j)) := by
  refine ⟨fun h => ?_, fun h => ?_, fun h1 h2 => ?_⟩
  · simp [setOne, h]
  · simp [setOne, h]
  · simp [setOne, h1, h2]

/-- Expressions: they are added at the end, those of one command until the first bad one, and removed by Python index. -/
theorem C88_expressions (env : Env) (j : Jail) :
    (∀ v, (setOne env j "addfailregex" v).1 = env.okFail j.prefRegex (decide (1 < j.maxLines)) j.useDns v ∧
      ((setOne env j "addfailregex" v).1 = true → (setOne env j "addfailregex" v).2 = { j with failRegex := j.failRegex ++ [v] })) ∧
    (∀ v, (setOne env j "addignoreregex" v).1 = env.okRegex j.useDns v ∧
      ((setOne env j "addignoreregex" v).1 = true → (setOne env j "addignoreregex" v).2 = { j with ignoreRegex := j.ignoreRegex ++ [v] })) ∧
    (∀ v i, env.int v = some i → ∃ l, setOne env j "delfailregex" v = (true, { j with failRegex := l }) ∧ PyDel j.failRegex i l) ∧
    (∀ v i, env.int v = some i → ∃ l, setOne env j "delignoreregex" v = (true, { j with ignoreRegex := l }) ∧ PyDel j.ignoreRegex i l) ∧
    (∀ v, env.int v = none → setOne env j "delfailregex" v = (false, j) ∧ setOne env j "delignoreregex" v = (false, j)) := by
  refine ⟨fun v => ?_, fun v => ?_, fun v i h => ?_, fun v i h => ?_, fun v h => ?_⟩
  · simp only [setOne, addFailRegex, gt_iff_lt]
    cases hz : env.okFail j.prefRegex (decide (1 < j.maxLines)) j.useDns v <;> simp
  · simp only [setOne, addIgnoreRegex]
    cases hz : env.okRegex j.useDns v <;> simp
  · exact ⟨delAt j.failRegex i, by simp [setOne, h, orFail], delAt_spec _ _⟩
  · exact ⟨delAt j.ignoreRegex i, by simp [setOne, h, orFail], delAt_spec _ _⟩
  · simp [setOne, h, orFail]

/-- Several expressions at once: all are added if all are good, else those before the first bad one. -/
theorem C88_several (env : Env) (s : Server) (name : String) (j : Jail) (vs : List String) (hs : s name = some j) :
    ∃ n, n ≤ vs.length ∧ (multiSet env s name "addfailregex" vs).2 name = some { j with failRegex := j.failRegex ++ vs.take n } ∧
      ((multiSet env s name "addfailregex" vs).1.isSome = true ↔ ∀ v ∈ vs, env.okFail j.prefRegex (decide (1 < j.maxLines)) j.useDns v = true) ∧
      ((multiSet env s name "addfailregex" vs).1.isSome = true → n = vs.length) ∧
      ∀ v ∈ vs.take n, env.okFail j.prefRegex (decide (1 < j.maxLines)) j.useDns v = true := by
  obtain ⟨n, h1, h2, h3, h4, h5⟩ := addAll_fail env vs j
  refine ⟨n, h1, ?_, ?_, ?_, h5⟩
  · simp [multiSet, hs, put, h2]
  · simp only [multiSet, hs, if_true]
    simp only [gt_iff_lt] at h3
    rw [← h3]
    cases (addAll (addFailRegex env) j vs).1 <;> simp
  · intro h
    apply h4
    simp only [multiSet, hs, if_true] at h
    cases hc : (addAll (addFailRegex env) j vs).1
    · rw [hc] at h; simp at h
    · rfl

/-- What the filter works with is what is shown, after any commands. -/
theorem C88_consistent (env : Env) : ∀ (cs : List Cmd) (s : Server), (∀ n j, s n = some j → Consistent j) → ∀ n j, run env s cs n = some j → Consistent j
  | [], _, h => h
  | c :: cs, s, h => by
    unfold run
    apply C88_consistent env cs
    have key : ∀ (name : String) (j' : Jail), Consistent j' → ∀ n j, put s name j' n = some j → Consistent j := by
      intro name j' hj' n j hp
      unfold put at hp
      split at hp
      · injection hp with hp; subst hp; exact hj'
      · exact h n j hp
    cases c with
    | get n a => exact h
    | set q n a =>
      unfold exec setCmd
      cases a with
      | nil => dsimp only; split <;> exact h
      | cons opt vs =>
        dsimp only
        split
        · exact h
        · cases hs : s n with
          | none => exact h
          | some j =>
            dsimp only
            split
            · exact h
            · apply key
              unfold setArgs
              split
              · obtain ⟨l, hl⟩ := addIgnores_shape env vs j
                rw [hl]
                exact h n j hs
              · cases vs with
                | nil => exact h n j hs
                | cons v _ => exact setOne_consistent env j opt v (h n j hs)
    | multiSet n f vs =>
      unfold exec multiSet
      dsimp only
      cases hs : s n with
      | none => exact h
      | some j =>
        apply key
        have hj := h n j hs
        cases f with
        | true =>
          obtain ⟨k, _, hk, _⟩ := addAll_fail env vs j
          simp
          rw [hk]
          exact hj
        | false =>
          obtain ⟨k, _, hk, _⟩ := addAll_ignore env vs j
          simp
          rw [hk]
          exact hj

/-- A new jail is consistent. -/
theorem C88_new (env : Env) : Consistent (Jail.new env) := ⟨rfl, rfl, by simp [Jail.new], rfl, by simp [Jail.new]⟩

/-- A jail with the name of an option of the server cannot be changed, whatever the command. -/
theorem C88_refuted_reserved (env : Env) (q : Bool) (s : Server) (name : String) (args : List String)
    (hn : name ∈ ["loglevel", "logtarget", "syslogsocket", "allowipv6", "thread", "dbfile", "dbmaxmatches", "dbpurgeage"]) : (setCmd env q s name args).2 = s := by
  unfold setCmd
  rw [if_pos (by simpa [serverSet] using hn)]

/-! ## C89 -/

/-- After any accepted changes of `bantime.*` the formula in use is that of the options shown. -/
theorem C89_effective (env : Env) : ∀ (ps : List (String × String)) (be : String → Option Val) (opt v : String),
    (be = (fun _ => none)) → (∀ p ∈ (opt, v) :: ps, p.1 ≠ "evformula" ∧ p.1 ≠ "evmultipliers") →
    (∀ n p, (((opt, v) :: ps))[n]? = some p → (setExtra env (((((opt, v) :: ps).take n).foldl (fun b p => (setExtra env b p.1 p.2).2) be)) p.1 p.2).1 = true) →
    Effective env (((opt, v) :: ps).foldl (fun b p => (setExtra env b p.1 p.2).2) be) := by
  have key : ∀ (ps : List (String × String)) (be : String → Option Val), Prepared env be → (be "evformula" = none ∨ Effective env be) →
      (∀ p ∈ ps, p.1 ≠ "evformula" ∧ p.1 ≠ "evmultipliers") →
      (∀ n p, ps[n]? = some p → (setExtra env ((ps.take n).foldl (fun b p => (setExtra env b p.1 p.2).2) be) p.1 p.2).1 = true) →
      (ps ≠ [] ∨ Effective env be) → Effective env (ps.foldl (fun b p => (setExtra env b p.1 p.2).2) be) := by
    intro ps
    induction ps with
    | nil =>
      intro be _ _ _ _ h
      rcases h with h | h
      · exact absurd rfl h
      · exact h
    | cons p ps ih =>
      intro be hp he hn ha _
      rw [List.foldl_cons]
      have h0 := ha 0 p rfl
      obtain ⟨a, b⟩ := setExtra_effective env be p.1 p.2 (hn p List.mem_cons_self).1 (hn p List.mem_cons_self).2 hp he (by simpa using h0)
      apply ih _ a (Or.inr b) (fun q hq => hn q (List.mem_cons_of_mem _ hq)) _ (Or.inr b)
      intro n q hq
      have := ha (n + 1) q (by simpa using hq)
      simpa using this
  intro ps be opt v hbe hn ha
  subst hbe
  exact key _ _ ⟨Or.inl ⟨rfl, rfl⟩, Or.inl rfl, Or.inl rfl⟩ (Or.inl rfl) hn ha (Or.inl (by simp))

/-- What is shown for an option of `bantime.*` after it was accepted. -/
theorem C89_shown (env : Env) (be : String → Option Val) (opt v : String) (h1 : opt ≠ "evformula") (h2 : opt ≠ "evmultipliers") (h : (setExtra env be opt v).1 = true) :
    (opt = "increment" → ∃ b, (setExtra env be opt v).2 opt = some (.bool b) ∧ (b = true ↔ v ≠ "" ∧ env.lower v ∈ ["1", "on", "true", "yes"])) ∧
    (opt ≠ "increment" → v = "" → (setExtra env be opt v).2 opt = none) ∧
    (opt = "maxtime" ∨ opt = "rndtime" → v ≠ "" → ∃ q, env.seconds v = some q ∧ (setExtra env be opt v).2 opt = some (.num q)) ∧
    (opt ≠ "increment" → opt ≠ "maxtime" → opt ≠ "rndtime" → v ≠ "" → (setExtra env be opt v).2 opt = some (.str v)) := by
  unfold setExtra at h ⊢
  dsimp only at h ⊢
  by_cases hs : (store env be opt (if v = "" then none else some v)).1 = true
  · rw [if_pos hs]
    rw [prepare_frame _ _ _ _ _ h1 h2]
    refine ⟨fun ho => ?_, fun ho hv => ?_, fun ho hv => ?_, fun a b c hv => ?_⟩
    · subst ho
      refine ⟨_, by simp [store, upd]; rfl, ?_⟩
      by_cases hv : v = ""
      · simp [hv]
      · simp [hv, asBool]
    · simp [store, ho, hv, upd]
    · rw [if_neg hv] at hs ⊢
      have hi : opt ≠ "increment" := by rcases ho with rfl | rfl <;> decide
      have hc : (decide (opt = "maxtime") || decide (opt = "rndtime")) = true := by simpa using ho
      unfold store at hs ⊢
      dsimp only at hs ⊢
      rw [if_neg hi, if_pos hc] at hs ⊢
      cases hq : env.seconds v with
      | none => rw [hq] at hs; cases hs
      | some q => exact ⟨q, rfl, by simp [upd]⟩
    · simp [store, a, b, c, hv, upd]
  · rw [if_neg hs] at h
    exact absurd h hs

/-- A factor that was refused is shown nevertheless, is not in use, and blocks all further changes of the formula until it is replaced. -/
theorem C89_refuted_factor (env : Env) (be : String → Option Val) (v : String) (hv : v ≠ "") (hf : env.okFactor v = false) :
    let be' := (setExtra env be "factor" v).2
    (setExtra env be "factor" v).1 = false ∧ be' "factor" = some (.str v) ∧ be' "evformula" = be "evformula" ∧
      ∀ opt w, opt ∈ ["formula", "maxtime", "rndtime", "multipliers"] → (setExtra env be' opt w).1 = false := by
  have e1 : setExtra env be "factor" v = (false, upd be "factor" (some (.str v))) := by
    simp [setExtra, store, prepare, rebuild, hv, textOf, upd, hf]
  rw [e1]
  dsimp only
  refine ⟨rfl, upd_self _ _ _, upd_ne _ "factor" "evformula" _ (by decide), ?_⟩
  intro opt w ho
  have hr : ∀ be2 : String → Option Val, be2 "factor" = some (.str v) → (rebuild env be2).1 = false := by
    intro be2 h
    simp [rebuild, textOf, h, hf]
  unfold setExtra
  dsimp only
  generalize (if w = "" then none else some w) = x
  have hne : opt ≠ "factor" := by rintro rfl; simp at ho
  have h3 : (store env (upd be "factor" (some (.str v))) opt x).2 "factor" = some (.str v) := by
    rw [store_frame _ _ _ _ _ (Ne.symm hne), upd_self]
  by_cases hs : (store env (upd be "factor" (some (.str v))) opt x).1 = true
  · rw [if_pos hs]
    unfold prepare
    rw [if_pos (by simp at ho; rcases ho with rfl | rfl | rfl | rfl <;> simp)]
    split
    · split
      · rfl
      · apply hr; rw [upd_ne _ "evmultipliers" "factor" _ (by decide)]; exact h3
    · exact hr _ h3
  · rw [if_neg hs]
    simpa using hs

/-! ## Examples -/

/-- an environment with small numbers -/
def demo : Env where
  int := fun s => if s = "3" then some 3 else if s = "-1" then some (-1) else if s = "0" then some 0 else if s = "8" then some 8 else none
  seconds := fun s => if s = "10m" then some 600 else if s = "1.5" then some (3 / 2) else none
  lower := fun s => if s = "YES" then "yes" else s
  okRegex := fun _ s => s != "("
  okFail := fun _ _ _ s => s != "("
  okCodec := fun s => s == "utf-8"
  preferEnc := "utf-8"
  okZone := fun s => s == "UTC+0200"
  pattern := fun s => some (.str s)
  cache := fun _ => none
  addIgnore := fun l s => if s = "bad" then none else some (l ++ [s])
  delIgnore := fun l s => if l.contains s then some (l.erase s) else none
  okFactor := fun s => s != "1 +"
  okFormula := fun _ => true
  words := fun s => if s = "3 8" then ["3", "8"] else [s]
  other := fun _ _ => none

def demoServer : Server := fun n => if n = "ssh" ∨ n = "web" ∨ n = "dbfile" then some (Jail.new demo) else none

/-- the settings of a jail as a string list where they are -/
def strsOf : Option Val → List String
  | some (.strs l) => l
  | some (.str s) => [s]
  | some (.int n) => [toString n]
  | some (.bool b) => [toString b]
  | some (.num q) => [toString q.num, toString q.den]
  | some .none => ["None"]
  | none => ["error"]
  | _ => ["other"]

example : strsOf (getCmd demo (run demo demoServer [.set false "ssh" ["maxretry", "8"], .set true "web" ["maxretry", "3"], .set false "ssh" ["findtime", "1.5"]]) "ssh" ["maxretry"]) = ["8"] := by decide +kernel
example : strsOf (setCmd demo false demoServer "ssh" ["usedns", "YES"]).1 = ["yes"] := by decide +kernel
example : strsOf (setCmd demo false demoServer "ssh" ["usedns", "maybe"]).1 = ["no"] := by decide +kernel
example : strsOf (setCmd demo false demoServer "ssh" ["maxlines", "0"]).1 = ["error"] := by decide +kernel
example : strsOf (getCmd demo (run demo demoServer [.multiSet "ssh" true ["a", "b", "(", "c"], .set false "ssh" ["addfailregex", "d"], .set false "ssh" ["delfailregex", "-1"]]) "ssh" ["failregex"]) = ["a", "b"] := by
  decide +kernel
/-- a refused `addignoreip` with several values leaves the first ones -/
example : strsOf (setCmd demo false demoServer "ssh" ["addignoreip", "a", "bad", "b"]).1 = ["error"] ∧ strsOf (getCmd demo (setCmd demo false demoServer "ssh" ["addignoreip", "a", "bad", "b"]).2 "ssh" ["ignoreip"]) = ["a"] := by
  decide +kernel
example : strsOf (getCmd demo (run demo demoServer [.set false "ssh" ["bantime.factor", "1 +"], .set false "ssh" ["bantime.maxtime", "10m"]]) "ssh" ["bantime.factor"]) = ["1 +"] := by decide +kernel
example : strsOf (setCmd demo false demoServer "dbfile" ["maxretry", "8"]).1 = ["error"] := by decide +kernel
example : (match (setExtra demo (fun _ => none) "multipliers" "3 8").2 "evformula" with | some (.formula ms fa _ none none) => ms == [3, 8] && fa == "1" | _ => false) = true := by decide +kernel

end Verif
