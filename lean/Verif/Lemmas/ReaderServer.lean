import Verif.Lemmas.ReaderOrder
import Verif.Spec.Server

/-! # Commands of a configuration on the server -/

namespace Verif.Reader

open ReaderSpec Spec.Server

/-- Files that are added. -/
theorem logsOf_append (a b : List Cmd) : logsOf (a ++ b) = logsOf a ++ logsOf b := List.filterMap_append ..

/-- Form of all commands of a jail after `add`. -/
def JailForm (jail : Str) (c : Cmd) : Prop :=
  ParamForm jail c ∨ (∃ f o, c = .set jail [arg "addlogpath".toList, arg f, arg o]) ∨ ∃ n x, c = .action jail n x

theorem JailForm.target {jail : Str} {c : Cmd} (h : JailForm jail c) : target c = some jail := by
  rcases h with h | ⟨f, o, rfl⟩ | ⟨n, x, rfl⟩
  · exact h.isParam.2
  · rfl
  · rfl

theorem JailForm.toServer {jail : Str} {c : Cmd} (h : JailForm jail c) (mk : Str → List Str → Action) : toServer mk c = (settings mk c).map (.set (String.ofList jail)) := by
  rcases h with (⟨k, rs, rfl, _⟩ | ⟨k, args, rfl, _⟩) | ⟨f, o, rfl⟩ | ⟨n, x, rfl⟩ <;> rfl

/-- The cases of `settings` for a command with a name. -/
theorem settings_set (mk : Str → List Str → Action) (jail : Str) (k : String) (vs : List (Option Val)) :
    settings mk (.set jail (arg k.toList :: vs)) =
      if k = "addfailregex" then (vs.take 1).map (fun v => .failRegex (shownVal v))
      else if k = "addignoreregex" then (vs.take 1).map (fun v => .ignoreRegex (shownVal v))
      else if k = "addignoreip" then vs.map (fun v => .ignoreIP (shownVal v))
      else if k = "addlogpath" then (vs.take 1).map (fun v => .logPath (shownVal v))
      else (vs.take 1).map (fun v => .option k (shownVal v)) := by
  show (if arg k.toList = _ then _ else _) = _
  have e : shownVal (arg k.toList) = k := by show String.ofList k.toList = k; simp
  simp only [arg_inj, e]

theorem filterMap_settings {X : Type} (g : Setting → Option X) (f : Cmd → List X) (mk : Str → List Str → Action) : ∀ {l : List Cmd}, (∀ c ∈ l, (settings mk c).filterMap g = f c) →
    (l.flatMap (settings mk)).filterMap g = l.flatMap f := by
  intro l
  induction l with
  | nil => intro _; rfl
  | cons c l ih =>
    intro h
    rw [List.flatMap_cons, List.filterMap_append, List.flatMap_cons, h c (List.mem_cons_self ..), ih (fun x hx => h x (List.mem_cons_of_mem _ hx))]

theorem map_none {X Y : Type} (g : Setting → Option X) (h : Y → Setting) (hg : ∀ y, g (h y) = none) (l : List Y) : (l.map h).filterMap g = [] := by
  rw [List.filterMap_map, List.filterMap_eq_nil_iff]
  intro y _
  exact hg y

theorem map_some {X Y : Type} (g : Setting → Option X) (h : Y → Setting) (k : Y → X) (hg : ∀ y, g (h y) = some (k y)) (l : List Y) : (l.map h).filterMap g = l.map k := by
  rw [List.filterMap_map]
  induction l with
  | nil => rfl
  | cons y l ih => rw [List.filterMap_cons]; simp only [Function.comp, hg, List.map_cons]; rw [← ih]

theorem failRegexes_settings (mk : Str → List Str → Action) {jail : Str} {c : Cmd} (h : JailForm jail c) :
    failRegexes (settings mk c) = (addedBy "failregex" c).map String.ofList := by
  rcases h with (⟨k, rs, rfl, hk⟩ | ⟨k, args, rfl, h1, h2, h3⟩) | ⟨f, o, rfl⟩ | ⟨n, x, rfl⟩
  · rcases hk with rfl | rfl
    · exact map_some (X := String) (fun | .failRegex r => some r | _ => none) _ String.ofList (fun _ => rfl) _
    · exact map_none _ _ (fun _ => rfl) _
  · rw [settings_set]
    by_cases e : k = "addfailregex"
    · subst e
      obtain ⟨r, rfl⟩ := h2 (.inl rfl)
      rfl
    · rw [addedBy_set e, if_neg e]
      unfold failRegexes
      repeat' split
      all_goals exact map_none _ _ (fun _ => rfl) _
  · rfl
  · rfl

theorem ignoreRegexes_settings (mk : Str → List Str → Action) {jail : Str} {c : Cmd} (h : JailForm jail c) :
    ignoreRegexes (settings mk c) = (addedBy "ignoreregex" c).map String.ofList := by
  rcases h with (⟨k, rs, rfl, hk⟩ | ⟨k, args, rfl, h1, h2, h3⟩) | ⟨f, o, rfl⟩ | ⟨n, x, rfl⟩
  · rcases hk with rfl | rfl
    · exact map_none _ _ (fun _ => rfl) _
    · exact map_some (X := String) (fun | .ignoreRegex r => some r | _ => none) _ String.ofList (fun _ => rfl) _
  · rw [settings_set]
    by_cases e : k = "addignoreregex"
    · subst e
      obtain ⟨r, rfl⟩ := h2 (.inr rfl)
      rfl
    · rw [addedBy_set e]
      unfold ignoreRegexes
      rw [if_neg e]
      repeat' split
      all_goals exact map_none _ _ (fun _ => rfl) _
  · rfl
  · rfl

theorem optionValues_settings (mk : Str → List Str → Action) {jail : Str} {c : Cmd} (h : JailForm jail c) {key : String} (hkey : key ∉ addNames) :
    optionValues key (settings mk c) = (setsBy key c).map shownVal := by
  have hk' := hkey
  simp only [addNames, List.mem_cons, List.not_mem_nil, or_false, not_or] at hk'
  rcases h with (⟨k, rs, rfl, hk⟩ | ⟨k, args, rfl, h1, h2, h3⟩) | ⟨f, o, rfl⟩ | ⟨n, x, rfl⟩
  · rcases hk with rfl | rfl
    · exact map_none _ _ (fun _ => rfl) _
    · exact map_none _ _ (fun _ => rfl) _
  · rw [settings_set]
    by_cases e : k = key
    · subst e
      obtain ⟨v, rfl⟩ := h3 hkey
      rw [if_neg hk'.1, if_neg hk'.2.1, if_neg hk'.2.2.2.1, if_neg h1]
      rw [show Cmd.set jail [arg k.toList, v] = setCmd jail k v from rfl, setsBy_setCmd, if_pos rfl]
      simp [optionValues]
    · rw [setsBy_set e]
      unfold optionValues
      repeat' split
      all_goals first | exact map_none _ _ (fun _ => rfl) _ | exact map_none _ _ (fun _ => if_neg e) _
  · rfl
  · rfl

theorem logPaths_settings (mk : Str → List Str → Action) {jail : Str} {c : Cmd} (h : JailForm jail c) :
    logPaths (settings mk c) = (logsOf [c]).map (fun f => String.ofList f.1) := by
  rcases h with (⟨k, rs, rfl, hk⟩ | ⟨k, args, rfl, h1, h2, h3⟩) | ⟨f, o, rfl⟩ | ⟨n, x, rfl⟩
  · rcases hk with rfl | rfl
    · exact map_none _ _ (fun _ => rfl) _
    · exact map_none _ _ (fun _ => rfl) _
  · have hl : logsOf [.set jail (arg k.toList :: args)] = [] := by
      have : logBy (.set jail (arg k.toList :: args)) = none := by
        unfold logBy
        split
        · rename_i e; cases e
          exact if_neg (fun e => h1 (arg_inj.mp e))
        · rfl
      unfold logsOf
      rw [List.filterMap_cons, this]
      rfl
    rw [hl, settings_set, if_neg h1]
    unfold logPaths
    repeat' split
    all_goals exact map_none _ _ (fun _ => rfl) _
  · rfl
  · rfl

theorem ignoredIPs_settings (mk : Str → List Str → Action) {jail : Str} {c : Cmd} (h : JailForm jail c) :
    ignoredIPs (settings mk c) = (ignored [c]).map shownVal := by
  rcases h with (⟨k, rs, rfl, hk⟩ | ⟨k, args, rfl, h1, h2, h3⟩) | ⟨f, o, rfl⟩ | ⟨n, x, rfl⟩
  · rcases hk with rfl | rfl
    · exact map_none _ _ (fun _ => rfl) _
    · exact map_none _ _ (fun _ => rfl) _
  · have hl : ignored [.set jail (arg k.toList :: args)] = if k = "addignoreip" then args else [] := by
      show (if arg k.toList = _ then args else []) ++ [] = _
      rw [List.append_nil]
      by_cases e : k = "addignoreip"
      · rw [if_pos e, if_pos (arg_inj.mpr e)]
      · rw [if_neg e, if_neg (fun x => e (arg_inj.mp x))]
    rw [hl, settings_set]
    unfold ignoredIPs
    split
    · rename_i e; subst e; exact map_none _ _ (fun _ => rfl) _
    · split
      · rename_i e; subst e; exact map_none _ _ (fun _ => rfl) _
      · split
        · exact map_some (X := String) _ _ shownVal (fun _ => rfl) _
        · exact map_none _ _ (fun _ => rfl) _
  · rfl
  · rfl

theorem actionNames_settings (mk : Str → List Str → Action) {jail : Str} {c : Cmd} (h : JailForm jail c) :
    actionNames (settings mk c) = (actionsOf [c]).map String.ofList := by
  rcases h with (⟨k, rs, rfl, hk⟩ | ⟨k, args, rfl, h1, h2, h3⟩) | ⟨f, o, rfl⟩ | ⟨n, x, rfl⟩
  · rcases hk with rfl | rfl
    · exact map_none _ _ (fun _ => rfl) _
    · exact map_none _ _ (fun _ => rfl) _
  · show _ = []
    rw [settings_set]
    unfold actionNames
    repeat' split
    all_goals exact map_none _ _ (fun _ => rfl) _
  · rfl
  · rfl

/-! ## Ignored addresses -/

theorem ignoredBy_set {jail : Str} {k : String} {args : List (Option Val)} : ignoredBy (.set jail (arg k.toList :: args)) = if k = "addignoreip" then args else [] := by
  show (if arg k.toList = arg "addignoreip".toList then args else []) = _
  by_cases e : k = "addignoreip"
  · rw [if_pos e, if_pos (arg_inj.mpr e)]
  · rw [if_neg e, if_neg (fun x => e (arg_inj.mp x))]

theorem ignored_appended (env : Env) (jail : Str) (kv : String × Option Val) : ((appended env jail kv).getD []).flatMap ignoredBy = [] := by
  unfold appended
  split
  · rfl
  · rename_i v _
    split
    · rename_i h
      refine flatMap_regexCmds_set _ jail _ v ?_ (fun _ => rfl)
      intro r
      rw [ignoredBy_set, if_neg (by rcases h with h | h <;> rw [h] <;> decide)]
    · split
      · rfl
      · split
        · rename_i h
          show ignoredBy (setCmd _ _ _) ++ [] = []
          rw [List.append_nil]
          refine ignoredBy_set.trans (if_neg ?_)
          intro e
          rw [e] at h
          exact absurd h (by decide +kernel)
        · split
          · cases hj : journalCmds env jail (lines v) with
            | none => rfl
            | some l =>
              refine flatMap_nil ?_
              intro c hc
              obtain ⟨args, rfl⟩ := mem_journalCmds hj c hc
              exact ignoredBy_set.trans (if_neg (by decide))
          · rfl

theorem ignored_rest {env : Env} {jail : Str} {o : Opts} {r : List Cmd} (h : restCmds env jail o.items = some r) : r.flatMap ignoredBy = [] := by
  rw [restCmds_flatMap _ env jail _ _ h]
  exact flatMap_nil (fun kv _ => ignored_appended env jail kv)

theorem ignored_early (jail : Str) (o : Opts) : (usednsCmds jail o.items).flatMap ignoredBy = [] ∧ (prioCmds jail o.items).flatMap ignoredBy = [] := by
  refine ⟨flatMap_nil ?_, flatMap_nil ?_⟩
  · intro c hc
    obtain ⟨v, rfl⟩ := mem_usedns hc
    exact ignoredBy_set.trans (if_neg (by decide))
  · intro c hc
    obtain ⟨k, v, hk, rfl⟩ := mem_prio hc
    exact ignoredBy_set.trans (if_neg (by rcases hk with rfl | rfl <;> decide))

theorem ignored_plain (jail : Str) {o : Opts} (hn : Named o) : (o.items.flatMap (plainCmds jail)).flatMap ignoredBy = (words (value o "ignoreip")).map arg := by
  have hp : ∀ kv ∈ o.items, (plainCmds jail kv).flatMap ignoredBy = if kv.1 = "ignoreip" then (words kv.2).map arg else [] := by
    intro kv hkv
    have hk := hn kv.1 (List.mem_map_of_mem hkv)
    unfold plainCmds
    split
    · rename_i h; rw [h]; rfl
    · split
      · rename_i h
        show ignoredBy _ ++ [] = _
        rw [List.append_nil]
        exact ignoredBy_set.trans (if_pos rfl)
      · split
        · rfl
        · show ignoredBy _ ++ [] = _
          rw [List.append_nil]
          refine ignoredBy_set.trans (if_neg ?_)
          intro e
          rw [e] at hk
          exact absurd hk (by decide)
  rw [List.flatMap_assoc, flatMap_key (key := "ignoreip") o.nodup (fun kv hm hkv => by rw [hp kv hm, if_neg hkv]), value_eq_lookup]
  cases hl : Dict.lookup "ignoreip" o.items with
  | none => rfl
  | some v =>
    show (plainCmds jail ("ignoreip", v)).flatMap ignoredBy = _
    rw [hp ("ignoreip", v) ((Dict.lookup_eq_some_iff o.nodup _ _).mp hl), if_pos rfl]
    rfl

theorem ignored_all {env : Env} {allow : Bool} {j : JailSrc} {l : List Cmd} (h : convert env allow j = .cmds l false) (hn : Named j.opts) (ha : ∀ c ∈ j.actions, isAction c = true) :
    ignored l = (words (value j.opts "ignoreip")).map arg := by
  obtain ⟨fo, hf⟩ := filterOpts_exists h
  obtain ⟨rf, rj, h1, h2, rfl⟩ := convert_cmds h hf
  have hl : ((logsFor env j).getD []).flatMap ignoredBy = [] := by
    refine flatMap_nil ?_
    intro c hc
    obtain ⟨f, o, rfl⟩ := mem_logsFor hc
    rfl
  have hact : j.actions.flatMap ignoredBy = [] := by
    refine flatMap_nil ?_
    intro c hc
    have := ha c hc
    cases c <;> first | rfl | cases this
  unfold ignored
  show ([] ++ List.flatMap ignoredBy _ : List (Option Val)) = _
  rw [List.nil_append]
  simp only [List.flatMap_append, (ignored_early _ _).1, (ignored_early _ _).2, ignored_rest h1, ignored_rest h2, ignored_plain j.name hn, hl, hact, List.append_nil, List.nil_append]

theorem convert_form {env : Env} {allow : Bool} {j : JailSrc} {l : List Cmd} (h : convert env allow j = .cmds l false) (hn : Named j.opts) (ha : ActionsOk j) :
    ∃ r, l = .add j.name (backend j.opts) :: r ∧ ∀ c ∈ r, JailForm j.name c := by
  obtain ⟨e, r, rfl, _, _, hp⟩ := order h hn
  refine ⟨_, rfl, ?_⟩
  intro c hc
  rcases List.mem_append.mp hc with hc | hc
  · rcases List.mem_append.mp hc with hc | hc
    · exact .inl (hp c hc)
    · exact .inr (.inl (mem_logsFor hc))
  · exact .inr (.inr (ha c hc))

/-- A jail as configuration of the server. -/
def confOf (mk : Str → List Str → Action) (j : JailSrc) (l : List Cmd) : JailConf :=
  ⟨String.ofList j.name, String.ofList (backend j.opts), l.tail.flatMap (settings mk)⟩

theorem toServer_conf (mk : Str → List Str → Action) {env : Env} {allow : Bool} {j : JailSrc} {l : List Cmd} (h : convert env allow j = .cmds l false) (hn : Named j.opts) (ha : ActionsOk j) :
    l.flatMap (toServer mk) = .add (confOf mk j l).name (confOf mk j l).backend :: (confOf mk j l).settings.map (.set (confOf mk j l).name) := by
  obtain ⟨r, rfl, hr⟩ := convert_form h hn ha
  show SCmd.add _ _ :: List.flatMap _ r = _
  congr 1
  show _ = (r.flatMap (settings mk)).map _
  rw [List.map_flatMap]
  clear h hn ha
  induction r with
  | nil => rfl
  | cons c r ih =>
    rw [List.flatMap_cons, List.flatMap_cons, (hr c (List.mem_cons_self ..)).toServer mk, ih (fun x hx => hr x (List.mem_cons_of_mem _ hx))]
    rfl

/-- Errors of a configuration change nothing on the server. -/
theorem run_filter (w : World) : ∀ (l : List SCmd) (s : Server), Server.run w l s = Server.run w (l.filter (· ≠ .configError)) s := by
  intro l
  induction l with
  | nil => intro s; rfl
  | cons c l ih =>
    intro s
    by_cases h : c = .configError
    · subst h
      rw [List.filter_cons_of_neg (by simp), ← ih]
      rfl
    · rw [List.filter_cons_of_pos (by simpa using h), Server.run, Server.run]
      split
      · rfl
      · exact ih _

/-- The jails that are not skipped, with commands. -/
def kept (env : Env) (allow : Bool) (js : List JailSrc) : List (JailSrc × List Cmd) :=
  js.filterMap (fun j => match convert env allow j with | .cmds l false => some (j, l) | _ => none)

theorem convert_skipped {env : Env} {allow : Bool} {j : JailSrc} {l : List Cmd} (h : convert env allow j = .cmds l true) : l = [.configError] := by
  cases he : j.error with
  | true => unfold convert at h; rw [if_pos he] at h; cases h; rfl
  | false =>
    have hw : ∀ fo, convertWith env allow j fo = .cmds l true → l = [.configError] := by
      intro fo hw
      unfold convertWith at hw
      split at hw
      · cases hw
      · split at hw
        · cases hw
        · split at hw
          · cases hw; rfl
          · cases hw
    rw [convert_eq env allow j he] at h
    split at h
    · split at h
      · cases h
      · exact hw _ h
    · exact hw _ h

theorem jailsStream_server {env : Env} {allow : Bool} (mk : Str → List Str → Action) : ∀ {js : List JailSrc} {x : List Cmd × List Cmd}, convertAll env allow js = some x →
    (∀ j ∈ js, Named j.opts ∧ ActionsOk j) →
    (x.1.flatMap (toServer mk)).filter (· ≠ .configError) = ((kept env allow js).map (fun p => confOf mk p.1 p.2)).flatMap (fun c => .add c.name c.backend :: c.settings.map (.set c.name)) ∧
    x.2.flatMap (toServer mk) = ((kept env allow js).map (fun p => confOf mk p.1 p.2)).map (fun c => .start c.name) := by
  intro js
  induction js with
  | nil => intro x h _; cases h; exact ⟨rfl, rfl⟩
  | cons j js ih =>
    intro x h hj
    rw [convertAll] at h
    split at h
    · rename_i l sk cmds starts hc hr
      cases h
      obtain ⟨i1, i2⟩ := ih hr (fun j' h' => hj j' (List.mem_cons_of_mem _ h'))
      cases sk with
      | true =>
        have hk : kept env allow (j :: js) = kept env allow js := by
          unfold kept; rw [List.filterMap_cons, hc]
        have := convert_skipped hc
        subst this
        rw [hk]
        exact ⟨i1, i2⟩
      | false =>
        have hk : kept env allow (j :: js) = (j, l) :: kept env allow js := by
          unfold kept; rw [List.filterMap_cons, hc]
        obtain ⟨hn, ha⟩ := hj j (List.mem_cons_self ..)
        rw [hk]
        refine ⟨?_, ?_⟩
        · show ((l ++ cmds).flatMap (toServer mk)).filter _ = _
          rw [List.flatMap_append, List.filter_append, i1, toServer_conf mk hc hn ha, List.map_cons, List.flatMap_cons]
          congr 1
          rw [List.filter_eq_self]
          intro c hc
          rcases List.mem_cons.mp hc with rfl | hc
          · simp
          · obtain ⟨x, _, rfl⟩ := List.mem_map.mp hc; simp
        · show (SCmd.start _ :: List.flatMap _ starts) = _
          rw [i2]
          rfl
    · cases h

theorem run_jailsStream {env : Env} {allow : Bool} (mk : Str → List Str → Action) {js : List JailSrc} {l : List Cmd} (h : jailsStream env allow js = some l)
    (hj : ∀ j ∈ js, Named j.opts ∧ ActionsOk j) (w : World) (s : Server) :
    Server.run w (l.flatMap (toServer mk)) s = Server.run w (confStream ((kept env allow js).map (fun p => confOf mk p.1 p.2))) s := by
  unfold jailsStream at h
  cases hc : convertAll env allow js with
  | none => rw [hc] at h; cases h
  | some x =>
    rw [hc] at h
    cases h
    obtain ⟨h1, h2⟩ := jailsStream_server mk hc hj
    rw [run_filter, List.flatMap_append, List.filter_append, h1, h2]
    unfold confStream
    congr 2
    rw [List.filter_eq_self]
    intro c hc
    obtain ⟨x, _, rfl⟩ := List.mem_map.mp hc
    simp

end Verif.Reader
