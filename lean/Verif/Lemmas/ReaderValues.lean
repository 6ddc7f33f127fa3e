import Verif.Lemmas.ReaderStream

/-! # Values of options after the stream of a jail -/

namespace Verif.Reader

open ReaderSpec

theorem filterMap_flatMap {X Y : Type} (f : X → Option Y) (l : List X) : l.filterMap f = l.flatMap (fun x => (f x).toList) := by
  induction l with
  | nil => rfl
  | cons x l ih =>
    rw [List.flatMap_cons, ← ih, List.filterMap_cons]
    cases f x <;> rfl

/-- Values an option is set to by a command. -/
def setsBy (key : String) (c : Cmd) : List (Option Val) := (setBy key c).toList

theorem setsBy_setCmd (key : String) (jail : Str) (k : String) (v : Option Val) : setsBy key (setCmd jail k v) = if k = key then [v] else [] := by
  have : (k.toList = key.toList) = (k = key) := by rw [String.toList_inj]
  show (if k.toList = key.toList then some v else none).toList = _
  by_cases h : k = key
  · rw [if_pos (this.mpr h), if_pos h]; rfl
  · rw [if_neg (fun e => h (this.mp e)), if_neg h]; rfl

theorem addedBy_setCmd {key : String} (jail : Str) {k : String} (v : Option Val) (h : k ≠ "add" ++ key) : addedBy key (setCmd jail k v) = [] := by
  have : ¬k.toList = ("add" ++ key).toList := fun e => h (String.toList_inj.mp e)
  unfold setCmd
  unfold addedBy
  split
  · rename_i k' r e
    cases e
    exact if_neg this
  · rename_i e; cases e
  · rfl

theorem setsBy_set {key : String} {jail : Str} {k : String} {args : List (Option Val)} (h : k ≠ key) : setsBy key (.set jail (arg k.toList :: args)) = [] := by
  have hk : ¬k.toList = key.toList := fun e => h (String.toList_inj.mp e)
  cases args with
  | nil => rfl
  | cons a args =>
    cases args with
    | nil =>
      show (if k.toList = key.toList then some a else none).toList = []
      rw [if_neg hk]; rfl
    | cons _ _ => rfl

theorem addedBy_set {key : String} {jail : Str} {k : String} {args : List (Option Val)} (h : k ≠ "add" ++ key) : addedBy key (.set jail (arg k.toList :: args)) = [] := by
  have hk : ¬k.toList = ("add" ++ key).toList := fun e => h (String.toList_inj.mp e)
  unfold addedBy
  split
  · rename_i k' r e; cases e; exact if_neg hk
  · rename_i e; cases e
  · rfl

/-- What an item of options adds to a list of regular expressions. -/
theorem added_appended (env : Env) (jail : Str) {key : String} (hkey : key = "failregex" ∨ key = "ignoreregex") (kv : String × Option Val) :
    ((appended env jail kv).getD []).flatMap (addedBy key) = if kv.1 = key then ((kv.2.map lines).getD []).filter (fun l => !l.isEmpty) else [] := by
  obtain ⟨k, v⟩ := kv
  cases v with
  | none => simp [appended]
  | some v =>
    unfold appended
    dsimp only
    split
    · rename_i h; rw [Option.getD_some, flatMap_regexCmds key jail k v h hkey]; rfl
    · rename_i h1
      have hne : k ≠ key := fun e => h1 (e ▸ hkey)
      rw [if_neg hne]
      split
      · rfl
      · split
        · rename_i h3
          rw [Option.getD_some, List.flatMap_cons, List.flatMap_nil, List.append_nil]
          refine addedBy_setCmd jail _ ?_
          rintro rfl
          rcases hkey with rfl | rfl
          · exact absurd h3 (by decide)
          · exact absurd h3 (by decide)
        · split
          · cases hj : journalCmds env jail (lines v) with
            | none => rfl
            | some l =>
              refine flatMap_nil ?_
              intro c hc
              obtain ⟨args, rfl⟩ := mem_journalCmds hj c hc
              exact addedBy_set (by rcases hkey with rfl | rfl <;> decide)
          · rfl

theorem value_eq_lookup (o : Opts) (k : String) : value o k = (Dict.lookup k o.items).bind id := by
  show (match Dict.lookup k o.items with | some (some v) => some v | _ => none) = _
  cases h : Dict.lookup k o.items with
  | none => rfl
  | some v => cases v <;> rfl

theorem added_rest {env : Env} {jail : Str} {key : String} (hkey : key = "failregex" ∨ key = "ignoreregex") {o : Opts} {r : List Cmd} (h : restCmds env jail o.items = some r) :
    r.flatMap (addedBy key) = (((value o key).map lines).getD []).filter (fun l => !l.isEmpty) := by
  rw [restCmds_flatMap _ env jail _ _ h, flatMap_key (key := key) o.nodup (fun kv _ hkv => by rw [added_appended env jail hkey, if_neg hkv]), value_eq_lookup]
  cases hl : Dict.lookup key o.items with
  | none => rfl
  | some v =>
    simp only [added_appended env jail hkey, if_true]
    cases v <;> rfl

theorem added_early {jail : Str} {key : String} (hkey : key = "failregex" ∨ key = "ignoreregex") (items : List (String × Option Val)) :
    (usednsCmds jail items).flatMap (addedBy key) = [] ∧ (prioCmds jail items).flatMap (addedBy key) = [] := by
  rw [usednsCmds_flatMap, prioCmds_flatMap]
  refine ⟨flatMap_nil ?_, flatMap_nil ?_⟩
  · intro kv _
    split
    · split
      · rename_i h; exact addedBy_setCmd _ _ (by rw [h]; rcases hkey with rfl | rfl <;> decide)
      · rfl
    · rfl
  · intro kv _
    split
    · split
      · rename_i h; exact addedBy_setCmd _ _ (by rcases h with h | h <;> rw [h] <;> rcases hkey with rfl | rfl <;> decide)
      · rfl
    · rfl

theorem added_plain {jail : Str} {key : String} (hkey : key = "failregex" ∨ key = "ignoreregex") {o : Opts} (hn : Named o) :
    (o.items.flatMap (plainCmds jail)).flatMap (addedBy key) = [] := by
  rw [List.flatMap_assoc]
  refine flatMap_nil ?_
  intro kv hkv
  have hk := hn kv.1 (List.mem_map_of_mem hkv)
  unfold plainCmds
  split
  · rfl
  · split
    · rw [List.flatMap_cons, List.flatMap_nil, List.append_nil]
      exact addedBy_set (by rcases hkey with rfl | rfl <;> decide)
    · split
      · rfl
      · rw [List.flatMap_cons, List.flatMap_nil, List.append_nil]
        refine addedBy_setCmd _ _ ?_
        intro e
        rw [e] at hk
        rcases hkey with rfl | rfl <;> exact absurd hk (by decide)

theorem mem_logCmds {env : Env} {jail : Str} {v : Val} {c : Cmd} (h : c ∈ logCmds env jail v) : ∃ f o, c = .set jail [arg "addlogpath".toList, arg f, arg o] := by
  unfold logCmds at h
  rw [List.mem_flatMap] at h
  obtain ⟨p, _, h⟩ := h
  rw [List.mem_map] at h
  obtain ⟨f, _, rfl⟩ := h
  exact ⟨_, _, rfl⟩

theorem mem_logsFor {env : Env} {j : JailSrc} {c : Cmd} (h : c ∈ (logsFor env j).getD []) : ∃ f o, c = .set j.name [arg "addlogpath".toList, arg f, arg o] := by
  unfold logsFor at h
  split at h
  · split at h
    · cases h
    · exact mem_logCmds h
  · cases h

theorem added_logs (key : String) (env : Env) (j : JailSrc) : ((logsFor env j).getD []).flatMap (addedBy key) = [] := by
  refine flatMap_nil ?_
  intro c hc
  obtain ⟨f, o, rfl⟩ := mem_logsFor hc
  rfl

theorem added_actions (key : String) {l : List Cmd} (h : ∀ c ∈ l, isAction c = true) : l.flatMap (addedBy key) = [] := by
  refine flatMap_nil ?_
  intro c hc
  have := h c hc
  cases c <;> first | rfl | cases this

/-! ## Options -/

theorem sets_actions (key : String) {l : List Cmd} (h : ∀ c ∈ l, isAction c = true) : l.flatMap (setsBy key) = [] := by
  refine flatMap_nil ?_
  intro c hc
  have := h c hc
  cases c <;> first | rfl | cases this

theorem sets_logs (key : String) (env : Env) (j : JailSrc) : ((logsFor env j).getD []).flatMap (setsBy key) = [] := by
  refine flatMap_nil ?_
  intro c hc
  obtain ⟨f, o, rfl⟩ := mem_logsFor hc
  rfl

theorem sets_appended (env : Env) (jail : Str) {key : String} (hkey : key ∉ addNames) (kv : String × Option Val) :
    ((appended env jail kv).getD []).flatMap (setsBy key) =
      if kv.1 = key ∧ partOf key.toList "datepattern".toList = true then (kv.2.map (fun v => [some v])).getD [] else [] := by
  obtain ⟨k, v⟩ := kv
  simp only [addNames, List.mem_cons, List.not_mem_nil, or_false, not_or] at hkey
  obtain ⟨k1, k2, k3, k4, k5⟩ := hkey
  cases v with
  | none =>
    show ([] : List (Option Val)) = if _ then [] else []
    split <;> rfl
  | some v =>
    unfold appended
    dsimp only
    split
    · rename_i h
      have hr : ¬(k = key ∧ partOf key.toList "datepattern".toList = true) := by
        rintro ⟨rfl, h2⟩; rcases h with rfl | rfl <;> exact absurd h2 (by decide +kernel)
      rw [if_neg hr, Option.getD_some]
      refine flatMap_regexCmds_set _ jail k v ?_ (fun rs => rfl)
      intro r
      refine setsBy_set ?_
      rcases h with rfl | rfl
      · exact fun e => k1 (e.symm.trans (by decide))
      · exact fun e => k2 (e.symm.trans (by decide))
    · split
      · rename_i h
        have hr : ¬(k = key ∧ partOf key.toList "datepattern".toList = true) := by
          rintro ⟨rfl, h2⟩; rcases h with rfl | rfl | rfl <;> exact absurd h2 (by decide)
        rw [if_neg hr]; rfl
      · split
        · rename_i h
          rw [Option.getD_some, List.flatMap_cons, List.flatMap_nil, List.append_nil, setsBy_setCmd]
          by_cases e : k = key
          · subst e; rw [if_pos rfl, if_pos ⟨rfl, h⟩]; rfl
          · rw [if_neg e, if_neg (fun x => e x.1)]
        · rename_i h
          have hr : ¬(k = key ∧ partOf key.toList "datepattern".toList = true) := by
            rintro ⟨rfl, h2⟩; exact h h2
          rw [if_neg hr]
          split
          · cases hj : journalCmds env jail (lines v) with
            | none => rfl
            | some l =>
              refine flatMap_nil ?_
              intro c hc
              obtain ⟨args, rfl⟩ := mem_journalCmds hj c hc
              exact setsBy_set (fun e => k3 e.symm)
          · rfl

/-- The value as a list. -/
def valueL (o : Opts) (k : String) : List (Option Val) := ((value o k).map (fun v => [some v])).getD []

theorem sets_rest {env : Env} {jail : Str} {key : String} (hkey : key ∉ addNames) {o : Opts} {r : List Cmd} (h : restCmds env jail o.items = some r) :
    r.flatMap (setsBy key) = if partOf key.toList "datepattern".toList = true then valueL o key else [] := by
  rw [restCmds_flatMap _ env jail _ _ h, flatMap_key (key := key) o.nodup (fun kv _ hkv => by rw [sets_appended env jail hkey, if_neg (fun x => hkv x.1)]), valueL, value_eq_lookup]
  cases hl : Dict.lookup key o.items with
  | none =>
    show ([] : List (Option Val)) = if _ then [] else []
    split <;> rfl
  | some v =>
    show ((appended env jail (key, v)).getD []).flatMap (setsBy key) = _
    rw [sets_appended env jail hkey]
    by_cases hd : partOf key.toList "datepattern".toList = true
    · rw [if_pos ⟨rfl, hd⟩, if_pos hd]; cases v <;> rfl
    · rw [if_neg (fun x => hd x.2), if_neg hd]

theorem sets_usedns {jail : Str} {key : String} (o : Opts) : (usednsCmds jail o.items).flatMap (setsBy key) = if key = "usedns" then valueL o key else [] := by
  rw [usednsCmds_flatMap, flatMap_key (key := key) o.nodup ?_, valueL, value_eq_lookup]
  · cases hl : Dict.lookup key o.items with
    | none => simp
    | some v =>
      cases v with
      | none => simp
      | some v => simp only [setsBy_setCmd, if_true]; rfl
  · intro kv _ hkv
    split
    · rw [setsBy_setCmd, if_neg hkv]; split <;> rfl
    · rfl

theorem sets_prio {jail : Str} {key : String} (o : Opts) : (prioCmds jail o.items).flatMap (setsBy key) = if key = "maxlines" ∨ key = "prefregex" then valueL o key else [] := by
  rw [prioCmds_flatMap, flatMap_key (key := key) o.nodup ?_, valueL, value_eq_lookup]
  · cases hl : Dict.lookup key o.items with
    | none => simp
    | some v =>
      cases v with
      | none => simp
      | some v => simp only [setsBy_setCmd, if_true]; rfl
  · intro kv _ hkv
    split
    · rw [setsBy_setCmd, if_neg hkv]; split <;> rfl
    · rfl

theorem sets_plain {jail : Str} {key : String} (hkey : key ∉ addNames) (o : Opts) :
    (o.items.flatMap (plainCmds jail)).flatMap (setsBy key) = if key = "logpath" ∨ key = "ignoreip" ∨ key ∈ ignoreOpts then [] else (o.get? key).toList := by
  simp only [addNames, List.mem_cons, List.not_mem_nil, or_false, not_or] at hkey
  have hp : ∀ kv : String × Option Val, (plainCmds jail kv).flatMap (setsBy key) = if kv.1 = key ∧ ¬(key = "logpath" ∨ key = "ignoreip" ∨ key ∈ ignoreOpts) then [kv.2] else [] := by
    intro kv
    unfold plainCmds
    split
    · rename_i h
      rw [if_neg (fun x => x.2 (.inl (x.1 ▸ h)))]; rfl
    · split
      · rename_i h
        rw [if_neg (fun x => x.2 (.inr (.inl (x.1 ▸ h)))), List.flatMap_cons, List.flatMap_nil, List.append_nil]
        exact setsBy_set (fun e => hkey.2.2.2.1 e.symm)
      · split
        · rename_i h
          rw [if_neg (fun x => x.2 (.inr (.inr (x.1 ▸ h))))]; rfl
        · rename_i h1 h2 h3
          rw [List.flatMap_cons, List.flatMap_nil, List.append_nil, setsBy_setCmd]
          by_cases e : kv.1 = key
          · rw [if_pos e, if_pos]
            refine ⟨e, ?_⟩
            rw [← e]
            rintro (x | x | x)
            · exact h1 x
            · exact h2 x
            · exact h3 x
          · rw [if_neg e, if_neg (fun x => e x.1)]
  rw [List.flatMap_assoc, flatMap_key (key := key) o.nodup (fun kv _ hkv => by rw [hp, if_neg (fun x => hkv x.1)])]
  show _ = if _ then _ else (Dict.lookup key o.items).toList
  cases hl : Dict.lookup key o.items with
  | none => simp
  | some v => simp only [hp, true_and]; split <;> simp_all

/-- All values an option is set to by the stream of a jail. -/
theorem sets_all {env : Env} {allow : Bool} {j : JailSrc} {l : List Cmd} {fo : Opts} {key : String} (h : convert env allow j = .cmds l false) (hf : FilterOpts env j fo)
    (ha : ∀ c ∈ j.actions, isAction c = true) (hkey : key ∉ addNames) :
    l.filterMap (setBy key) =
      (if key = "usedns" then valueL j.opts key else []) ++ (if key = "maxlines" ∨ key = "prefregex" then valueL j.opts key else [])
      ++ ((if key = "usedns" then valueL fo key else []) ++ (if key = "maxlines" ∨ key = "prefregex" then valueL fo key else []))
      ++ ((if partOf key.toList "datepattern".toList = true then valueL fo key else []) ++ (if partOf key.toList "datepattern".toList = true then valueL j.opts key else []))
      ++ (if key = "logpath" ∨ key = "ignoreip" ∨ key ∈ ignoreOpts then [] else (j.opts.get? key).toList) := by
  obtain ⟨rf, rj, h1, h2, rfl⟩ := convert_cmds h hf
  rw [filterMap_flatMap]
  show ([] ++ List.flatMap (setsBy key) _ : List (Option Val)) = _
  rw [List.nil_append]
  simp only [List.flatMap_append, sets_usedns, sets_prio, sets_rest hkey h1, sets_rest hkey h2, sets_plain hkey, sets_logs, sets_actions key ha, List.append_nil]

theorem added_all {env : Env} {allow : Bool} {j : JailSrc} {l : List Cmd} {fo : Opts} {key : String} (h : convert env allow j = .cmds l false) (hf : FilterOpts env j fo)
    (ha : ∀ c ∈ j.actions, isAction c = true) (hn : Named j.opts) (hkey : key = "failregex" ∨ key = "ignoreregex") :
    added key l = (((value fo key).map lines).getD []).filter (fun l => !l.isEmpty) ++ (((value j.opts key).map lines).getD []).filter (fun l => !l.isEmpty) := by
  obtain ⟨rf, rj, h1, h2, rfl⟩ := convert_cmds h hf
  unfold added
  show ([] ++ List.flatMap (addedBy key) _ : List Str) = _
  rw [List.nil_append]
  simp only [List.flatMap_append, (added_early hkey _).1, (added_early hkey _).2, added_rest hkey h1, added_rest hkey h2, added_plain hkey hn, added_logs, added_actions key ha, List.append_nil, List.nil_append]

end Verif.Reader
