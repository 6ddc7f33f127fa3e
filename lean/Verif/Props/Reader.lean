import Verif.Lemmas.ReaderServer
import Verif.Props.Server

/-!
# C66-C68: from the configuration to running jails
-/

namespace Verif

open Reader ReaderSpec Spec.Server

/-! ## C66: a jail gets what is configured -/

/-- The regular expressions a jail gets are the lines (not empty ones) of the filter, then those of the jail, in this order. -/
theorem C66_regexes {env : Reader.Env} {allow : Bool} {j : JailSrc} {l : List Cmd} {fo : Opts} {key : String} (h : convert env allow j = .cmds l false)
    (hf : FilterOpts env j fo) (hn : Named j.opts) (ha : ActionsOk j) (ht : Typed j.opts ∧ Typed fo) (hkey : key = "failregex" ∨ key = "ignoreregex") :
    ∃ rf rj, Regexes (value fo key) rf ∧ Regexes (value j.opts key) rj ∧ added key l = rf ++ rj := by
  have ha' : ∀ c ∈ j.actions, isAction c = true := fun c hc => by obtain ⟨n, x, rfl⟩ := ha c hc; rfl
  have tv : ∀ o, Typed o → ∀ v, value o key = some v → ∃ s, v = .str s := by
    intro o ho v hv
    refine ho key (by rcases hkey with rfl | rfl <;> decide) v ?_
    unfold value at hv
    split at hv
    · cases hv; assumption
    · cases hv
  exact ⟨_, _, regexes_lines (tv fo ht.2), regexes_lines (tv j.opts ht.1), added_all h hf ha' hn hkey⟩

/-- `usedns`, `maxlines` and `prefregex` have the value of the filter if it has one, otherwise that of the jail. -/
theorem C66_early {env : Reader.Env} {allow : Bool} {j : JailSrc} {l : List Cmd} {fo : Opts} {key : String} (h : convert env allow j = .cmds l false)
    (hf : FilterOpts env j fo) (ha : ActionsOk j) (hkey : early key) :
    effective key l = ((value fo key).or (value j.opts key)).map some := by
  have ha' : ∀ c ∈ j.actions, isAction c = true := fun c hc => by obtain ⟨n, x, rfl⟩ := ha c hc; rfl
  obtain ⟨k1, k2, k3⟩ := early_notAdd hkey
  unfold effective
  rw [sets_all h hf ha' k1, k2, if_pos (.inr (.inr k3) : key = "logpath" ∨ _)]
  have hv : ∀ a b : Opts, (valueL a key ++ valueL b key).getLast? = ((value b key).or (value a key)).map some := by
    intro a b
    unfold valueL
    cases value a key <;> cases value b key <;> rfl
  rcases hkey with rfl | rfl | rfl
  · simpa using hv j.opts fo
  · simpa using hv j.opts fo
  · simpa using hv j.opts fo

/-- `datepattern` has the value of the jail if it has one, otherwise that of the filter. -/
theorem C66_datepattern {env : Reader.Env} {allow : Bool} {j : JailSrc} {l : List Cmd} {fo : Opts} (h : convert env allow j = .cmds l false)
    (hf : FilterOpts env j fo) (ha : ActionsOk j) :
    effective "datepattern" l = ((value j.opts "datepattern").or (value fo "datepattern")).map some := by
  have ha' : ∀ c ∈ j.actions, isAction c = true := fun c hc => by obtain ⟨n, x, rfl⟩ := ha c hc; rfl
  unfold effective
  rw [sets_all h hf ha' (by decide), if_pos (by decide : "datepattern" = "logpath" ∨ "datepattern" = "ignoreip" ∨ "datepattern" ∈ ignoreOpts),
    if_neg (by decide), if_neg (by decide), if_neg (by decide), if_neg (by decide), if_pos (by decide +kernel), if_pos (by decide +kernel)]
  unfold valueL
  cases value j.opts "datepattern" <;> cases value fo "datepattern" <;> rfl

/-- Every other option of the jail has the value of the jail, whatever the filter is. -/
theorem C66_options {env : Reader.Env} {allow : Bool} {j : JailSrc} {l : List Cmd} {t : Template} (h : convert env allow j = .cmds l false) (ha : ActionsOk j) (ht : t ∈ ownTemplates) :
    effective t.name l = j.opts.get? t.name := by
  have ha' : ∀ c ∈ j.actions, isAction c = true := fun c hc => by obtain ⟨n, x, rfl⟩ := ha c hc; rfl
  obtain ⟨fo, hf⟩ := filterOpts_exists h
  have hc : ∀ t ∈ ownTemplates, t.name ∉ addNames ∧ partOf t.name.toList "datepattern".toList = false ∧ t.name ≠ "usedns" ∧ t.name ≠ "maxlines" ∧ t.name ≠ "prefregex" ∧
      t.name ∉ ignoreOpts ∧ t.name ≠ "logpath" ∧ t.name ≠ "ignoreip" := by decide +kernel
  obtain ⟨c1, c2, c3, c4, c5, h1, h2, h3⟩ := hc t ht
  unfold effective
  rw [sets_all h hf ha' c1, c2, if_neg c3, if_neg c3, if_neg (by simp [c4, c5]), if_neg (by simp [c4, c5]), if_neg (by simp), if_neg (by simp), if_neg (by simp [h1, h2, h3])]
  cases j.opts.get? t.name <;> rfl

/-- What only the client needs to know is not sent. -/
theorem C66_internal {env : Reader.Env} {allow : Bool} {j : JailSrc} {l : List Cmd} {k : String} (h : convert env allow j = .cmds l false) (ha : ActionsOk j)
    (hk : k ∈ ["action", "filter", "enabled", "backend", "skip_if_nologs"]) : effective k l = none := by
  have ha' : ∀ c ∈ j.actions, isAction c = true := fun c hc => by obtain ⟨n, x, rfl⟩ := ha c hc; rfl
  obtain ⟨fo, hf⟩ := filterOpts_exists h
  have hc : ∀ k ∈ ["action", "filter", "enabled", "backend", "skip_if_nologs"], k ∉ addNames ∧ partOf k.toList "datepattern".toList = false ∧ k ≠ "usedns" ∧ k ≠ "maxlines" ∧
      k ≠ "prefregex" ∧ k ∈ ignoreOpts := by decide +kernel
  obtain ⟨c1, c2, c3, c4, c5, c6⟩ := hc k hk
  unfold effective
  rw [sets_all h hf ha' c1, c2, if_neg c3, if_neg c3, if_neg (by simp [c4, c5]), if_neg (by simp [c4, c5]), if_neg (by simp), if_neg (by simp), if_pos (by simp [c6])]
  rfl

/-- The commands of a jail: it is added, then come `usedns`, `maxlines` and `prefregex`, then all other parameters (regular expressions among them), then its log files,
then its actions; all are for this jail. -/
theorem C66_order {env : Reader.Env} {allow : Bool} {j : JailSrc} {l : List Cmd} (h : convert env allow j = .cmds l false) (hn : Named j.opts) (ha : ActionsOk j) :
    ∃ e r g, l = .add j.name (backend j.opts) :: (e ++ r ++ g ++ j.actions) ∧ (∀ c ∈ e, isEarly c ∧ isParam c = true) ∧ (∀ c ∈ r, ¬isEarly c ∧ isParam c = true) ∧
      (∀ c ∈ e, ¬isRegex c) ∧ (∀ c ∈ g, isLog c = true) ∧ ∀ c ∈ l, target c = some j.name := by
  obtain ⟨e, r, rfl, he, hr, hp⟩ := order h hn
  refine ⟨e, r, (logsFor env j).getD [], rfl, fun c hc => ⟨he c hc, (hp c (List.mem_append_left _ hc)).isParam.1⟩, fun c hc => ⟨hr c hc, (hp c (List.mem_append_right _ hc)).isParam.1⟩, ?_, ?_, ?_⟩
  · intro c hc hx
    obtain ⟨k, hk, hs⟩ := he c hc
    have : ∀ key : String, (key = "failregex" ∨ key = "ignoreregex") → addedBy key c = [] := by
      intro key hkey
      rcases hp c (List.mem_append_left _ hc) with ⟨k', rs, rfl, _⟩ | ⟨k', args, rfl, _⟩
      · exact absurd rfl hs
      · refine addedBy_set ?_
        intro e'
        apply hs
        have : setsBy k (.set j.name (arg k'.toList :: args)) = [] := by
          refine setsBy_set ?_
          rw [e']
          rcases hkey with rfl | rfl <;> rcases hk with rfl | rfl | rfl <;> decide
        exact not_setBy (l := [_]) (by simpa using this) _ (List.mem_singleton.mpr rfl)
    rcases hx with hx | hx
    · exact hx (this _ (.inl rfl))
    · exact hx (this _ (.inr rfl))
  · intro c hc
    obtain ⟨f, o, rfl⟩ := mem_logsFor hc
    rfl
  · intro c hc
    rcases List.mem_cons.mp hc with rfl | hc
    · rfl
    · rcases List.mem_append.mp hc with hc | hc
      · rcases List.mem_append.mp hc with hc | hc
        · exact (hp c hc).isParam.2
        · obtain ⟨f, o, rfl⟩ := mem_logsFor hc
          rfl
      · obtain ⟨n, x, rfl⟩ := ha c hc
        rfl

/-- `usedns` is set before all else, if not the filter sets it and the jail sets `maxlines` or `prefregex`. -/
theorem C66_usedns {env : Reader.Env} {allow : Bool} {j : JailSrc} {l : List Cmd} {fo : Opts} (h : convert env allow j = .cmds l false) (hf : FilterOpts env j fo) (ha : ActionsOk j)
    (hc : value fo "usedns" = none ∨ value j.opts "maxlines" = none ∧ value j.opts "prefregex" = none) :
    ∃ u r, l = .add j.name (backend j.opts) :: (u ++ r) ∧ (∀ c ∈ u, setBy "usedns" c ≠ none) ∧ ∀ c ∈ r, setBy "usedns" c = none := by
  have ha' : ∀ c ∈ j.actions, isAction c = true := fun c hc => by obtain ⟨n, x, rfl⟩ := ha c hc; rfl
  obtain ⟨rf, rj, h1, h2, rfl⟩ := convert_cmds h hf
  have hu : ∀ o : Opts, value o "usedns" = none → usednsCmds j.name o.items = [] := by
    intro o ho
    cases hs : usednsCmds j.name o.items with
    | nil => rfl
    | cons c cs =>
      obtain ⟨v, rfl⟩ := mem_usedns (items := o.items) (jail := j.name) (by rw [hs]; exact List.mem_cons_self ..)
      have := sets_usedns (jail := j.name) (key := "usedns") o
      rw [hs, if_pos rfl, valueL, ho, List.flatMap_cons, setsBy_setCmd, if_pos rfl] at this
      cases this
  have hp : ∀ o : Opts, value o "maxlines" = none → value o "prefregex" = none → prioCmds j.name o.items = [] := by
    intro o ho1 ho2
    cases hs : prioCmds j.name o.items with
    | nil => rfl
    | cons c cs =>
      obtain ⟨k, v, hk, rfl⟩ := mem_prio (items := o.items) (jail := j.name) (by rw [hs]; exact List.mem_cons_self ..)
      have := sets_prio (jail := j.name) (key := k) o
      rw [hs, if_pos hk, valueL, List.flatMap_cons, setsBy_setCmd, if_pos rfl] at this
      rcases hk with rfl | rfl
      · rw [ho1] at this; cases this
      · rw [ho2] at this; cases this
  refine ⟨usednsCmds j.name j.opts.items ++ usednsCmds j.name fo.items,
    prioCmds j.name j.opts.items ++ prioCmds j.name fo.items ++ (rf ++ rj ++ j.opts.items.flatMap (plainCmds j.name) ++ (logsFor env j).getD [] ++ j.actions), ?_, ?_, ?_⟩
  · rcases hc with hc | ⟨hc1, hc2⟩
    · rw [hu fo hc]; simp
    · rw [hp _ hc1 hc2]; simp
  · intro c hc
    rcases List.mem_append.mp hc with hc | hc
    · obtain ⟨v, rfl⟩ := mem_usedns hc; rw [setBy_setCmd]; simp
    · obtain ⟨v, rfl⟩ := mem_usedns hc; rw [setBy_setCmd]; simp
  · refine not_setBy ?_
    have e : partOf "usedns".toList "datepattern".toList = false := by decide +kernel
    simp only [List.flatMap_append, sets_prio, sets_rest (key := "usedns") (by decide) h1, sets_rest (key := "usedns") (by decide) h2, sets_plain (key := "usedns") (by decide), sets_logs,
      sets_actions _ ha', e]
    rw [if_neg (by decide), if_neg (by decide), if_neg (by decide), if_neg (by decide), if_pos (by decide)]
    rfl

/-- The log files of a jail are those that exist for the lines of `logpath`, in this order; with `systemd` there are none. -/
theorem C66_logs {env : Reader.Env} {allow : Bool} {j : JailSrc} {l : List Cmd} (h : convert env allow j = .cmds l false) (hn : Named j.opts) (ha : ActionsOk j) :
    (isSystemd (backend j.opts) = true ∨ value j.opts "logpath" = none → logsOf l = []) ∧
    ∀ fs, isSystemd (backend j.opts) = false → LogFiles env.glob (value j.opts "logpath") fs → logsOf l = fs := by
  obtain ⟨e, r, rfl, _, _, hp⟩ := order h hn
  have hl : logsOf (.add j.name (backend j.opts) :: (e ++ r ++ (logsFor env j).getD [] ++ j.actions)) = logsOf ((logsFor env j).getD []) := by
    have h0 : logsOf (e ++ r) = [] := by
      unfold logsOf
      rw [List.filterMap_eq_nil_iff]
      intro c hc
      rcases hp c hc with ⟨k, rs, rfl, _⟩ | ⟨k, args, rfl, hk, _⟩
      · rfl
      · unfold logBy
        split
        · rename_i e; cases e
          exact if_neg (fun e => hk (arg_inj.mp e))
        · rfl
    have h1 : logsOf j.actions = [] := by
      unfold logsOf
      rw [List.filterMap_eq_nil_iff]
      intro c hc
      obtain ⟨n, x, rfl⟩ := ha c hc
      rfl
    show logsOf (e ++ r ++ (logsFor env j).getD [] ++ j.actions) = _
    rw [logsOf_append, logsOf_append, h0, h1]
    simp
  rw [hl]
  refine ⟨?_, ?_⟩
  · intro hs
    have : logsFor env j = none := by
      unfold logsFor
      rcases hs with hs | hs
      · split
        · rw [if_pos hs]
        · rfl
      · unfold value at hs
        split
        · rename_i v hv; rw [hv] at hs; cases hs
        · rfl
    rw [this]; rfl
  · intro fs hs hf
    cases hv : value j.opts "logpath" with
    | none => rw [hv] at hf; cases hf
    | some v =>
      rw [hv] at hf
      cases hf with
      | text s ls fs h1 h2 =>
        obtain ⟨fs', h3, h4⟩ := logs_spec env j hv hs
        rw [logFiles_unique (.text s ls fs h1 h2) h3, h4]
        show List.filterMap logBy (List.map _ fs') = fs'
        rw [List.filterMap_map]
        clear h3 h4
        induction fs' with
        | nil => rfl
        | cons f fs ih => rw [List.filterMap_cons]; show f :: _ = _; rw [ih]

/-- The addresses ignored are the words of `ignoreip`. -/
theorem C66_ignoreip {env : Reader.Env} {allow : Bool} {j : JailSrc} {l : List Cmd} (h : convert env allow j = .cmds l false) (hn : Named j.opts) (ha : ActionsOk j) :
    (value j.opts "ignoreip" = none → ignored l = []) ∧ ∀ s, value j.opts "ignoreip" = some (.str s) → ∃ ws, Words s ws ∧ ignored l = ws.map arg := by
  have ha' : ∀ c ∈ j.actions, isAction c = true := fun c hc => by obtain ⟨n, x, rfl⟩ := ha c hc; rfl
  rw [ignored_all h hn ha']
  refine ⟨fun hv => by rw [hv]; rfl, ?_⟩
  intro s hv
  exact ⟨splitwords s, words_splitwords s, by rw [hv]; rfl⟩

/-- The server runs each jail that is not skipped, with the regular expressions, options, ignored addresses, log files and actions of its commands; and no other jail. -/
theorem C66_started (w : World) (mk : Str → List Str → Action) {env : Reader.Env} {allow : Bool} {js : List JailSrc} {l : List Cmd} {s s' : Server} (h : jailsStream env allow js = some l)
    (hj : ∀ j ∈ js, Named j.opts ∧ ActionsOk j) (hnames : (js.map (·.name)).Nodup)
    (hs : s.jails = Dict.empty) (hr : s.reloadState = Dict.empty) (hd : ∀ d, s.db = some d → ∀ n, d.jails.get? n ≠ some true)
    (hrun : Server.run w (l.flatMap (toServer mk)) s = (false, s')) :
    Running s' ∧
    (∀ n, n ∈ s'.jails.keys ↔ ∃ j ∈ js, ∃ c, convert env allow j = .cmds c false ∧ n = String.ofList j.name) ∧
    ∀ j ∈ js, ∀ c, convert env allow j = .cmds c false → ∃ sj, s'.jails.get? (String.ofList j.name) = some sj ∧ sj.alive = true ∧ sj.backend = String.ofList (backend j.opts) ∧
      sj.failRegex = (added "failregex" c).map String.ofList ∧ sj.ignoreRegex = (added "ignoreregex" c).map String.ofList ∧
      (∀ ip, ip ∈ sj.ignoreIPs ↔ ip ∈ (ignored c).map shownVal) ∧ (∀ p, p ∈ sj.logs ↔ ∃ f ∈ logsOf c, p = String.ofList f.1) ∧
      (∀ k, k ∉ addNames → sj.options.get? k = (effective k c).map shownVal) ∧
      sj.actions.actions.keys = (actionsOf c).map String.ofList := by
  rw [run_jailsStream mk h hj w s] at hrun
  have hmem : ∀ p, p ∈ kept env allow js ↔ p.1 ∈ js ∧ convert env allow p.1 = .cmds p.2 false := by
    intro p
    unfold kept
    rw [List.mem_filterMap]
    constructor
    · rintro ⟨j, hj, hm⟩
      split at hm
      · rename_i hc; cases hm; exact ⟨hj, hc⟩
      · cases hm
    · rintro ⟨hj, hc⟩
      exact ⟨p.1, hj, by rw [hc]⟩
  have hsub : ∀ js : List JailSrc, List.Sublist ((kept env allow js).map (fun p => p.1.name)) (js.map (·.name)) := by
    intro js
    induction js with
    | nil => exact List.Sublist.slnil
    | cons j js ih =>
      unfold kept
      rw [List.filterMap_cons]
      split
      · exact List.Sublist.cons _ ih
      · rename_i hm
        split at hm
        · cases hm; exact List.Sublist.cons_cons _ ih
        · cases hm
  have hnd : (((kept env allow js).map (fun p => confOf mk p.1 p.2)).map (·.name)).Nodup := by
    rw [List.map_map]
    have e : ((fun x : JailConf => x.name) ∘ fun p : JailSrc × List Cmd => confOf mk p.1 p.2) = String.ofList ∘ fun p => p.1.name := rfl
    rw [e, ← List.map_map]
    have hx := (hsub js).nodup hnames
    refine List.Pairwise.map _ ?_ hx
    intro a b hab e
    apply hab
    have := congrArg String.toList e
    simpa using this
  obtain ⟨h1, h2, _, h4⟩ := C44_start w s s' _ hs hr hd hnd hrun
  refine ⟨h1, ?_, ?_⟩
  · intro n
    rw [h2 n, List.map_map, List.mem_map]
    constructor
    · rintro ⟨p, hp, rfl⟩
      obtain ⟨hp1, hp2⟩ := (hmem p).mp hp
      exact ⟨p.1, hp1, p.2, hp2, rfl⟩
    · rintro ⟨j, hj, c, hc, rfl⟩
      exact ⟨(j, c), (hmem _).mpr ⟨hj, hc⟩, rfl⟩
  · intro j hjm c hc
    obtain ⟨hn, ha⟩ := hj j hjm
    obtain ⟨r, hcr, hform⟩ := convert_form hc hn ha
    obtain ⟨sj, g1, g2, g3⟩ := h4 (confOf mk j c) (List.mem_map.mpr ⟨(j, c), (hmem _).mpr ⟨hjm, hc⟩, rfl⟩)
    have hset : (confOf mk j c).settings = r.flatMap (settings mk) := by rw [hcr]; rfl
    have lift : ∀ {X : Type} (g : Setting → Option X) (f : Cmd → List X), (∀ c ∈ r, (settings mk c).filterMap g = f c) → (confOf mk j c).settings.filterMap g = r.flatMap f := by
      intro X g f hf
      rw [hset]; exact filterMap_settings g f mk hf
    have fm : ∀ {X Y : Type} (f : Cmd → List X) (g : X → Y), r.flatMap (fun c => (f c).map g) = (r.flatMap f).map g := by
      intro X Y f g; rw [List.map_flatMap]
    refine ⟨sj, g1, g2.alive, g2.backend, ?_, ?_, ?_, ?_, ?_, ?_⟩
    · rw [g2.failRegex]
      refine (lift _ _ (fun x hx => failRegexes_settings mk (hform x hx))).trans ?_
      rw [fm, hcr]; rfl
    · rw [g2.ignoreRegex]
      refine (lift _ _ (fun x hx => ignoreRegexes_settings mk (hform x hx))).trans ?_
      rw [fm, hcr]; rfl
    · intro ip
      rw [g2.ignoreIPs]
      have : ignoredIPs (confOf mk j c).settings = (ignored c).map shownVal := by
        refine (lift _ _ (fun x hx => ignoredIPs_settings mk (hform x hx))).trans ?_
        rw [fm, hcr]
        show _ = List.map shownVal ([] ++ List.flatMap ignoredBy r)
        simp [ignored]
      rw [this]
    · intro p
      rw [g2.logs]
      have : logPaths (confOf mk j c).settings = (logsOf c).map (fun f => String.ofList f.1) := by
        refine (lift _ _ (fun x hx => logPaths_settings mk (hform x hx))).trans ?_
        rw [fm, hcr]
        show _ = List.map _ (logsOf r)
        congr 1
        unfold logsOf
        rw [filterMap_flatMap]
        have e : ∀ x, List.filterMap logBy [x] = (logBy x).toList := by
          intro x
          rw [List.filterMap_cons]
          cases logBy x <;> rfl
        simp only [e]
      rw [this, List.mem_map]
      constructor
      · rintro ⟨f, hf, rfl⟩; exact ⟨f, hf, rfl⟩
      · rintro ⟨f, hf, rfl⟩; exact ⟨f, hf, rfl⟩
    · intro k hk
      rw [g3.options k]
      have : optionValues k (confOf mk j c).settings = (c.filterMap (setBy k)).map shownVal := by
        refine (lift _ _ (fun x hx => optionValues_settings mk (hform x hx) hk)).trans ?_
        rw [fm, hcr, filterMap_flatMap]
        rfl
      rw [this, List.getLast?_map]
      rfl
    · rw [g3.actions]
      refine (lift _ _ (fun x hx => actionNames_settings mk (hform x hx))).trans ?_
      rw [fm, hcr]
      show _ = List.map _ (actionsOf r)
      congr 1
      unfold actionsOf
      rw [filterMap_flatMap]
      have e : ∀ x, actionsOf [x] = (match x with | .action _ n _ => some n | _ => none).toList := by
        intro x; cases x <;> rfl
      exact congrArg (fun f => List.flatMap f r) (funext e)

/-! ## C67: where a value is from -/

theorem jailOpts_sub : ∀ k, k ∈ jailOpts.map (·.name) → k ∈ jailTemplates.map (·.name) := by decide
theorem jailOpts_all : ∀ t, t ∈ jailTemplates → t ∈ jailOpts := by decide
theorem filterOpts_all : ∀ t, t ∈ filterTemplates → t ∈ filterOpts := by decide

/-- Every option of a section is read as stated by `Reads`; there are no other options. -/
theorem C67_options {env : Reader.Env} {get : String → Got} {given : String → Bool} {se conv : Bool} {ts : List Template} {o : Opts} (hn : (ts.map (·.name)).Nodup)
    (h : getOptions env get given se conv ts Dict.empty = some o) :
    (∀ t ∈ ts, Reads env get given conv t (o.get? t.name)) ∧ ∀ k ∈ o.keys, k ∈ ts.map (·.name) := by
  obtain ⟨h1, h2⟩ := getOptions_spec hn (fun t _ => Dict.get?_empty _) h
  refine ⟨?_, ?_⟩
  · intro t ht
    obtain ⟨x, hx, e⟩ := h1 t ht
    rw [e]; exact hx
  · intro k hk
    refine Decidable.byContradiction (fun hne => ?_)
    have e := h2 k hne
    rw [Dict.get?_empty] at e
    exact (Dict.get?_eq_none_iff o k).mp e hk

/-- What is read is unique. -/
theorem C67_unique {env : Reader.Env} {get : String → Got} {given : String → Bool} {conv : Bool} {t : Template} {x y : Option (Option Val)}
    (hx : Reads env get given conv t x) (hy : Reads env get given conv t y) : x = y := by
  have uc : ∀ {v a b}, Converts env t.kind v a → Converts env t.kind v b → a = b := by
    intro v a b ha hb
    have h1 := (converts_iff ..).mpr ha
    have h2 := (converts_iff ..).mpr hb
    rw [h1] at h2
    injection h2
  cases hx with
  | given h1 => cases hy <;> first | rfl | simp_all
  | text v h1 h2 h3 => cases hy <;> simp_all
  | converted v a h1 h2 h3 h4 =>
    cases hy with
    | converted v' b h1' h2' _ h4' => rw [h2] at h2'; cases h2'; rw [uc h4 h4']
    | wrong v' _ h2' _ h4' => rw [h2] at h2'; cases h2'; exact absurd h4 (h4' _)
    | given h => simp_all
    | text _ _ _ h => simp_all
    | missing _ h => simp_all
    | noSection _ h => simp_all
  | wrong v h1 h2 h3 h4 =>
    cases hy with
    | converted v' b _ h2' _ h4' => rw [h2] at h2'; cases h2'; exact absurd h4' (h4 _)
    | wrong => rfl
    | given h => simp_all
    | text _ _ _ h => simp_all
    | missing _ h => simp_all
    | noSection _ h => simp_all
  | missing h1 h2 => cases hy <;> first | rfl | simp_all
  | noSection h1 h2 => cases hy <;> first | rfl | simp_all

/-- A jail that could be read: all its options are as written in its section; its filter is the one it names, and the options of it are those given as parameters, else those of `[Init]`,
else nothing if the jail has the option itself, else those of `[Definition]`, where names are looked up in the same order. -/
theorem C67_jail {env : Reader.Env} {force : Bool} {name : Str} {get1 get2 : String → Got} {filterOf : Str → Option FilterSrc} {acts : Opts → Option (List Cmd)} {j : JailSrc}
    (hi : ∀ flt f, filterOf flt = some f → (f.initSection.map Prod.fst).Nodup)
    (h : readJail env force name get1 get2 filterOf acts = .jail j) (he : j.error = false) :
    j.name = name ∧ (force = true ∨ Reads env get1 (fun _ => false) true { name := "enabled", kind := .bool, default := some (.bool false) } (some (some (.bool true)))) ∧
    Named j.opts ∧ Typed j.opts ∧ (∀ t ∈ jailTemplates, Reads env get2 (fun _ => false) true t (j.opts.get? t.name)) ∧ acts j.opts = some j.actions ∧
    ∃ flt, Reads env get1 (fun _ => false) true { name := "filter", kind := .string, default := some (.str []) } (some (some (.str flt))) ∧
      (flt = [] ∧ j.filter = none ∨ ∃ b f fo fi vars, Reads env get1 (fun _ => false) true { name := "backend", kind := .string, default := some (.str "auto".toList) } (some (some (.str b))) ∧
        filterOf flt = some f ∧ j.filter = some (fo, fi) ∧
        (∀ k, "known/".toList.isPrefixOf k.toList = false →
          vars.get? k = (((autoOptions f (isSystemd b)).get? k).or ((Dict.lookup k f.initSection).map (fun v => some (.str v)))).or (j.opts.get? k)) ∧
        ∀ t ∈ filterTemplates, FilterValue f (autoOptions f (isSystemd b)) j.opts vars t.name ((merge fo fi).get? t.name)) := by
  unfold readJail at h
  cases h1 : getOptions env get1 (fun _ => false) true true jailOpts1st Dict.empty with
  | none => rw [h1] at h; cases h
  | some o1 =>
    rw [h1] at h
    obtain ⟨r1, _⟩ := C67_options jailOpts1st_nodup h1
    have ren := r1 { name := "enabled", kind := .bool, default := some (.bool false) } (by simp [jailOpts1st])
    have rb := r1 { name := "backend", kind := .string, default := some (.str "auto".toList) } (by simp [jailOpts1st])
    have rf := r1 { name := "filter", kind := .string, default := some (.str []) } (by simp [jailOpts1st])
    dsimp only at h
    split at h
    · cases h
    · rename_i hen
      have hen' : force = true ∨ o1.get? "enabled" = some (some (.bool true)) := by
        cases force with
        | true => exact .inl rfl
        | false => right; simpa using hen
      have hfe : force = true ∨ Reads env get1 (fun _ => false) true { name := "enabled", kind := .bool, default := some (.bool false) } (some (some (.bool true))) := by
        rcases hen' with x | x
        · exact .inl x
        · right; rw [← x]; exact ren
      have sv : ∀ (k : String) (d : Str), Reads env get1 (fun _ => false) true { name := k, kind := .string, default := some (.str d) } (o1.get? k) → ∃ s, o1.get? k = some (some (.str s)) := by
        intro k d hr
        generalize o1.get? k = x at hr
        cases hr with
        | given h => cases h
        | text _ _ _ h => cases h
        | converted v x _ _ _ hc => cases hc; exact ⟨_, rfl⟩
        | wrong => exact ⟨_, rfl⟩
        | missing => exact ⟨_, rfl⟩
        | noSection => exact ⟨_, rfl⟩
      obtain ⟨flt, hflt⟩ := sv "filter" [] rf
      obtain ⟨b, hb⟩ := sv "backend" _ rb
      have e1 : strOpt o1 "filter" = flt := by unfold strOpt; rw [hflt]
      have e2 : backend o1 = b := by unfold backend; rw [hb]
      rw [e1, e2] at h
      have good : ∀ o2, getOptions env get2 (fun _ => false) false true jailOpts Dict.empty = some o2 →
          Named o2 ∧ Typed o2 ∧ ∀ t ∈ jailTemplates, Reads env get2 (fun _ => false) true t (o2.get? t.name) := by
        intro o2 h2
        obtain ⟨q1, q2⟩ := C67_options jailOpts_nodup h2
        refine ⟨fun k hk => jailOpts_sub k (q2 k hk), ?_, fun t ht => q1 t (jailOpts_all t ht)⟩
        intro k hk v hv
        have hm : ∀ k ∈ textOpts, ∃ t ∈ jailOpts, t.name = k ∧ t.kind = .string ∧ t.default = none := by decide
        obtain ⟨t, ht, rfl, hkind, hdef⟩ := hm k hk
        have hr := q1 t ht
        rw [hv] at hr
        generalize hx : some (some v) = x at hr
        cases hr with
        | given => cases hx
        | text => cases hx; exact ⟨_, rfl⟩
        | converted v' x _ _ _ hc => cases hx; rw [hkind] at hc; cases hc; exact ⟨_, rfl⟩
        | wrong => rw [hdef] at hx; cases hx
        | missing => rw [hdef] at hx; cases hx
        | noSection => rw [hdef] at hx; cases hx
      split at h
      · rename_i hem
        have hem : flt = [] := by simpa using hem
        split at h
        · cases h
        · rename_i o2 h2
          obtain ⟨q1, q2, q3⟩ := good o2 h2
          split at h
          · cases h; cases he
          · rename_i as ha
            cases h
            exact ⟨rfl, hfe, q1, q2, q3, ha, flt, by rw [← hflt]; exact rf, .inl ⟨hem, rfl⟩⟩
      · split at h
        · cases h; cases he
        · rename_i f hf
          split at h
          · rename_i x init o2 hg1 h2
            obtain ⟨q1, q2, q3⟩ := good o2 h2
            split at h
            · rename_i fo as hg2 ha
              cases h
              refine ⟨rfl, hfe, q1, q2, q3, ha, flt, by rw [← hflt]; exact rf, .inr ⟨b, f, fo.1, fo.2, merge o2 init, by rw [← hb]; exact rb, hf, rfl, ?_, ?_⟩⟩
              · intro k hk
                rw [merge_get?, filter_init hg1, foldl_addInit_get? _ _ _ hk]
              · exact fun t ht => filter_sources (hi _ _ hf) hg1 hg2 t (filterOpts_all t ht)
            · cases h; cases he
            · cases h
          · cases h

/-- A jail is ignored exactly if it is not enabled (and not asked for). -/
theorem C67_disabled {env : Reader.Env} {force : Bool} {name : Str} {get1 get2 : String → Got} {filterOf : Str → Option FilterSrc} {acts : Opts → Option (List Cmd)} (hsec : ∀ k, get1 k ≠ .noSection) :
    readJail env force name get1 get2 filterOf acts = .disabled ↔
      force = false ∧ (get1 "enabled" = .noOption ∨ ∃ v, get1 "enabled" = .value v ∧ Converts env .bool v (.bool false)) := by
  obtain ⟨o1, h1⟩ := getOptions_isSome (env := env) (given := fun _ => false) (se := true) (conv := true) (fun _ => hsec) jailOpts1st Dict.empty
  have ren := (C67_options jailOpts1st_nodup h1).1 { name := "enabled", kind := .bool, default := some (.bool false) } (by simp [jailOpts1st])
  have hiff : o1.get? "enabled" = some (some (.bool true)) ↔ ¬(get1 "enabled" = .noOption ∨ ∃ v, get1 "enabled" = .value v ∧ Converts env .bool v (.bool false)) := by
    cases hg : get1 "enabled" with
    | noSection => exact absurd hg (hsec _)
    | noOption =>
      have := C67_unique ren (.missing rfl hg)
      simp only at this
      rw [this]; simp
    | value v =>
      have hc : Converts env .bool v (.bool (asBool v)) := (converts_iff ..).mp rfl
      have := C67_unique ren (.converted v _ rfl hg rfl hc)
      simp only at this
      rw [this]
      cases hv : asBool v with
      | true =>
        rw [hv] at hc
        constructor
        · intro _
          rintro (x | ⟨v', x, y⟩)
          · cases x
          · cases x
            have h1 := (converts_iff ..).mpr y
            simp [convertVal, hv] at h1
        · intro _; rfl
      | false =>
        rw [hv] at hc
        constructor
        · intro x; simp at x
        · intro x; exact absurd (.inr ⟨v, rfl, hc⟩) x
  unfold readJail
  rw [h1]
  dsimp only
  constructor
  · intro h
    split at h
    · rename_i hen
      have hen : force = false ∧ ¬o1.get? "enabled" = some (some (.bool true)) := by simpa using hen
      refine ⟨hen.1, ?_⟩
      exact Classical.byContradiction (fun x => hen.2 (hiff.mpr x))
    · exfalso
      repeat' split at h
      all_goals cases h
  · rintro ⟨hf, hv⟩
    rw [if_pos]
    have : ¬o1.get? "enabled" = some (some (.bool true)) := fun x => hiff.mp x hv
    simpa [hf] using this

/-- Filters get to know whether lines are read from the journal, unless this is given. -/
theorem C67_logtype (f : FilterSrc) (systemd : Bool) :
    (∀ k, k ≠ "logtype" → (autoOptions f systemd).get? k = f.params.get? k) ∧
    (∀ s, s ≠ [] → f.params.get? "logtype" = some (some (.str s)) → (autoOptions f systemd).get? "logtype" = some (some (.str s))) ∧
    (f.hasLogtype = true → autoOptions f systemd = f.params) ∧
    (f.hasLogtype = false → f.params.get? "logtype" = none → (autoOptions f systemd).get? "logtype" = some (arg (if systemd then "journal" else "file").toList)) := by
  refine ⟨?_, ?_, ?_, ?_⟩
  · intro k hk
    unfold autoOptions
    split
    · exact Dict.get?_insert_ne _ hk _
    · rfl
  · intro s hs hp
    unfold autoOptions
    rw [hp, if_neg]
    · exact hp
    · cases s with
      | nil => exact absurd rfl hs
      | cons c s => simp [falsy]
  · intro hl
    unfold autoOptions
    rw [hl, if_neg (by simp)]
  · intro hl hp
    unfold autoOptions
    rw [hl, hp, if_pos (by rfl), Dict.get?_insert_self]
    cases systemd <;> rfl

/-- The options of a filter as sent are those of `C67_jail` after tags were substituted; only `maxlines` is converted. -/
theorem C67_combined {env : Reader.Env} {o i fo : Opts} (h : combined env o i = some fo) :
    merge o i = Dict.empty ∧ fo = Dict.empty ∨ ∃ c, env.subst (merge o i) = some c ∧ (∀ k, k ≠ "maxlines" → fo.get? k = c.get? k) ∧
      ∀ s, c.get? "maxlines" = some (some (.str s)) → fo.get? "maxlines" = some ((env.toInt s).map .int) := by
  unfold combined at h
  dsimp only at h
  split at h
  · rename_i he
    cases h
    have : (merge o i).items = [] := by simpa using he
    have : merge o i = Dict.empty := Dict.ext' this
    exact .inl ⟨this, this⟩
  · right
    cases hs : env.subst (merge o i) with
    | none => rw [hs] at h; cases h
    | some c =>
      rw [hs] at h
      cases h
      refine ⟨c, rfl, ?_, ?_⟩
      · intro k hk
        unfold convertOptions
        split
        · exact Dict.get?_insert_ne _ hk _
        · rfl
      · intro s hc
        unfold convertOptions
        rw [hc]
        exact Dict.get?_insert_self ..

/-! ## C68: all jails are set up, then started -/

/-- The stream: the commands of all jails in order, then a start for each jail that is not skipped. -/
theorem C68_stream {env : Reader.Env} {allow : Bool} {js : List JailSrc} {l : List Cmd} :
    jailsStream env allow js = some l ↔ ∃ f : JailSrc → List Cmd × Bool, (∀ j ∈ js, convert env allow j = .cmds (f j).1 (f j).2) ∧
      l = js.flatMap (fun j => (f j).1) ++ (js.filter (fun j => !(f j).2)).map (fun j => .start j.name) := by
  have key : ∀ js : List JailSrc, ∀ f : JailSrc → List Cmd × Bool, (∀ j ∈ js, convert env allow j = .cmds (f j).1 (f j).2) →
      convertAll env allow js = some (js.flatMap (fun j => (f j).1), (js.filter (fun j => !(f j).2)).map (fun j => .start j.name)) := by
    intro js f
    induction js with
    | nil => intro _; rfl
    | cons j js ih =>
      intro h
      rw [convertAll, h j (List.mem_cons_self ..), ih (fun x hx => h x (List.mem_cons_of_mem _ hx))]
      simp only [List.flatMap_cons]
      cases hb : (f j).2 <;> simp [hb]
  have all : ∀ (js : List JailSrc) (x : List Cmd × List Cmd), convertAll env allow js = some x → ∀ j ∈ js, ∃ c b, convert env allow j = .cmds c b := by
    intro js
    induction js with
    | nil => intro x _ j hj; cases hj
    | cons j0 js ih =>
      intro x h j hj
      rw [convertAll] at h
      split at h
      · rename_i l sk cmds starts hc hr
        rcases List.mem_cons.mp hj with rfl | hj
        · exact ⟨_, _, hc⟩
        · exact ih _ hr j hj
      · cases h
  constructor
  · intro h
    unfold jailsStream at h
    cases hc : convertAll env allow js with
    | none => rw [hc] at h; cases h
    | some x =>
      rw [hc] at h
      have hf := all js x hc
      refine ⟨fun j => match convert env allow j with | .cmds c b => (c, b) | .raises => ([], false), ?_, ?_⟩
      · intro j hj
        obtain ⟨c, b, e⟩ := hf j hj
        simp only [e]
      · rw [key js (fun j => match convert env allow j with | .cmds c b => (c, b) | .raises => ([], false)) ?_] at hc
        · cases hc; cases h; rfl
        · intro j hj
          obtain ⟨c, b, e⟩ := hf j hj
          simp only [e]
  · rintro ⟨f, hf, rfl⟩
    unfold jailsStream
    rw [key js f hf]
    rfl

/-- The configuration as a whole fails exactly if a jail fails. -/
theorem C68_fails {env : Reader.Env} {allow : Bool} {js : List JailSrc} : jailsStream env allow js = none ↔ ∃ j ∈ js, convert env allow j = .raises := by
  unfold jailsStream
  rw [Option.map_eq_none_iff]
  induction js with
  | nil => simp [convertAll]
  | cons j js ih =>
    rw [convertAll]
    cases hc : convert env allow j with
    | raises => simp [hc]
    | cmds l b =>
      cases hr : convertAll env allow js with
      | none => simp only [true_iff]; obtain ⟨j', h1, h2⟩ := ih.mp hr; exact ⟨j', List.mem_cons_of_mem _ h1, h2⟩
      | some x =>
        simp only [reduceCtorEq, false_iff]
        rintro ⟨j', h1, h2⟩
        rcases List.mem_cons.mp h1 with rfl | h1
        · rw [hc] at h2; cases h2
        · rw [ih.mpr ⟨j', h1, h2⟩] at hr; cases hr

/-- A jail is skipped, with an error instead of commands, only if it could not be read or if it may be skipped and has no log file. -/
theorem C68_skipped {env : Reader.Env} {allow : Bool} {j : JailSrc} {l : List Cmd} (ht : Typed j.opts) (h : convert env allow j = .cmds l true) :
    l = [.configError] ∧ (j.error = true ∨ value j.opts "skip_if_nologs" = some (.bool true) ∧ isSystemd (backend j.opts) = false ∧ LogFiles env.glob (value j.opts "logpath") []) := by
  refine ⟨convert_skipped h, ?_⟩
  cases he : j.error with
  | true => exact .inl rfl
  | false =>
    right
    have hw : ∃ fo, convertWith env allow j fo = .cmds l true := by
      rw [convert_eq env allow j he] at h
      split at h
      · split at h
        · cases h
        · exact ⟨_, h⟩
      · exact ⟨_, h⟩
    obtain ⟨fo, hw⟩ := hw
    unfold convertWith at hw
    split at hw
    · cases hw
    · split at hw
      · cases hw
      · split at hw
        · rename_i hl
          obtain ⟨h1, h2⟩ := hl
          have hs : value j.opts "skip_if_nologs" = some (.bool true) := by
            unfold skipOpt at h2
            split at h2
            · rename_i s hv; unfold value; rw [hv, h2]
            · cases h2
          have hb : isSystemd (backend j.opts) = false ∧ ∃ v, j.opts.get? "logpath" = some (some v) := by
            unfold logsFor at h1
            split at h1
            · rename_i v hv
              split at h1
              · cases h1
              · rename_i hb; exact ⟨by simpa using hb, v, hv⟩
            · cases h1
          obtain ⟨hb, v, hv⟩ := hb
          obtain ⟨s, rfl⟩ := ht "logpath" (by decide) v hv
          have hv' : value j.opts "logpath" = some (.str s) := by unfold value; rw [hv]
          refine ⟨hs, hb, ?_⟩
          obtain ⟨fs, h3, h4⟩ := logs_spec env j hv' hb
          rw [h1] at h4
          have : fs = [] := by
            injection h4 with h4
            exact List.map_eq_nil_iff.mp h4.symm
          rw [hv']
          exact this ▸ h3
        · cases hw

/-- A jail without any of its log files is an error (no server is configured) or is skipped; it does not run without files, unless this is allowed. -/
theorem C68_nofiles {env : Reader.Env} {allow : Bool} {j : JailSrc} (he : j.error = false) (hb : isSystemd (backend j.opts) = false)
    (hl : LogFiles env.glob (value j.opts "logpath") []) :
    (allow = false → value j.opts "skip_if_nologs" ≠ some (.bool true) → convert env allow j = .raises) ∧
    (value j.opts "skip_if_nologs" = some (.bool true) → convert env allow j = .raises ∨ convert env allow j = .cmds [.configError] true) := by
  have hlog : logsFor env j = some [] := by
    cases hv : value j.opts "logpath" with
    | none => rw [hv] at hl; cases hl
    | some v =>
      rw [hv] at hl
      cases hl with
      | text s ls fs h1 h2 =>
        obtain ⟨fs, h3, h4⟩ := logs_spec env j hv hb
        rw [logFiles_unique h3 (.text s ls [] h1 h2)] at h4
        exact h4
  have hskip : skipOpt j.opts = true ↔ value j.opts "skip_if_nologs" = some (.bool true) := by
    unfold skipOpt value
    cases hg : j.opts.get? "skip_if_nologs" with
    | none => simp
    | some o =>
      cases o with
      | none => simp
      | some v => cases v <;> simp
  rw [convert_eq env allow j he]
  refine ⟨?_, ?_⟩
  · intro ha hs
    have : ∀ fo, convertWith env allow j fo = .raises := by
      intro fo
      unfold convertWith
      split
      · rfl
      · rw [if_pos ⟨hlog, by simp [ha], fun x => hs (hskip.mp x)⟩]
    split
    · split
      · rfl
      · exact this _
    · exact this _
  · intro hs
    have : ∀ fo, convertWith env allow j fo = .raises ∨ convertWith env allow j fo = .cmds [.configError] true := by
      intro fo
      unfold convertWith
      split
      · exact .inl rfl
      · rw [if_neg (fun x => x.2.2 (hskip.mpr hs)), if_pos ⟨hlog, hskip.mpr hs⟩]
        exact .inr rfl
    split
    · split
      · exact .inl rfl
      · exact this _
    · exact this _

/-! ## Examples -/

namespace ReaderExample

/-- Options of a section. -/
def sect (l : List (String × String)) (k : String) : Got :=
  match Dict.lookup k l with
  | some v => .value v.toList
  | none => .noOption

def number (s : Str) : Option Int :=
  if s.isEmpty then none else s.foldl (fun acc c => acc.bind (fun n => if c.isDigit then some (10 * n + ((c.toNat : Int) - 48)) else none)) (some 0)

/-- Some files, no tags. -/
def env : Reader.Env where
  toInt := number
  shlex s := some (split ' ' s)
  glob p := if p = "/var/log/*.log".toList then ["/var/log/auth.log".toList, "/var/log/mongo.log".toList] else if p = "/var/log/auth.log".toList then [p] else []
  subst := some

/-- `filter.d/mongodb-auth.conf`, in short -/
def mongo (params : Opts) : FilterSrc where
  get _ := sect [("failregex", "^a <HOST>$\n\n^b <HOST>$"), ("ignoreregex", ""), ("datepattern", "%Y-%m-%d"), ("usedns", "no")]
  initSection := [("maxlines", "10".toList), ("journalmatch", "_COMM=mongo".toList)]
  hasLogtype := false
  params := params

def acts : Opts → Option (List Cmd) := fun _ => some [.action "mongo".toList "iptables".toList []]

/-- The commands of a jail with these options. -/
def cmdsOf (params : Opts) (l : List (String × String)) : Conv :=
  match readJail env false "mongo".toList (sect l) (sect l) (fun n => if n = "mongodb-auth".toList then some (mongo params) else none) acts with
  | .jail j => convert env false j
  | _ => .raises

def jail : List (String × String) :=
  [("enabled", "true"), ("filter", "mongodb-auth"), ("logpath", "/var/log/*.log\n/var/log/auth.log tail\n/none"), ("maxretry", "5"), ("ignoreip", "127.0.0.1/8, ::1"),
   ("failregex", "^c <HOST>$"), ("findtime", "10m")]

def list : Conv → List Cmd
  | .cmds l _ => l
  | .raises => []

/-- A set of commands for one jail. -/
example : cmdsOf Dict.empty jail = .cmds
    [.add "mongo".toList "auto".toList,
     setCmd "mongo".toList "usedns" (some (.str "no".toList)),
     setCmd "mongo".toList "maxlines" (some (.int 10)),
     setCmd "mongo".toList "datepattern" (some (.str "%Y-%m-%d".toList)),
     .set "mongo".toList [arg "addjournalmatch".toList, arg "_COMM=mongo".toList],
     .set "mongo".toList [arg "addfailregex".toList, arg "^c <HOST>$".toList],
     setCmd "mongo".toList "maxretry" (some (.int 5)),
     setCmd "mongo".toList "findtime" (some (.str "10m".toList)),
     .set "mongo".toList [arg "addignoreip".toList, arg "127.0.0.1/8".toList, arg "::1".toList],
     .set "mongo".toList [arg "addlogpath".toList, arg "/var/log/auth.log".toList, arg "head".toList],
     .set "mongo".toList [arg "addlogpath".toList, arg "/var/log/mongo.log".toList, arg "head".toList],
     .set "mongo".toList [arg "addlogpath".toList, arg "/var/log/auth.log".toList, arg "tail".toList],
     .action "mongo".toList "iptables".toList []] false := by decide +kernel

/-- Without `failregex` in the jail those of the filter count. -/
example : added "failregex" (list (cmdsOf Dict.empty (jail.filter (·.1 ≠ "failregex")))) = ["^a <HOST>$".toList, "^b <HOST>$".toList] := by decide +kernel

/-- Those of the parameters count in addition to those of the jail. -/
example : added "failregex" (list (cmdsOf (Dict.empty.insert "failregex" (some (.str "^p <HOST>$".toList))) jail)) = ["^p <HOST>$".toList, "^c <HOST>$".toList] := by decide +kernel

/-- No log files. -/
example : cmdsOf Dict.empty (("logpath", "/none") :: jail) = .raises ∧
    cmdsOf Dict.empty (("logpath", "/none") :: ("skip_if_nologs", "yes") :: jail) = .cmds [.configError] true := by decide +kernel

/-- Jails that are not enabled, and of which the filter is not found. -/
example : (readJail env false [] (sect [("enabled", "no")]) (sect []) (fun _ => none) acts matches .disabled) = true ∧
    (readJail env true [] (sect [("enabled", "no"), ("filter", "x")]) (sect []) (fun _ => none) acts matches .jail _) = true ∧
    cmdsOf Dict.empty [("enabled", "1"), ("filter", "nginx")] = .cmds [.configError] true := by decide +kernel

def jails : List JailSrc :=
  [{ name := "a".toList, opts := (Dict.empty.insert "bantime" (some (.str "1h".toList))).insert "ignoreself" (some (.bool true)), filter := none, actions := [] },
   { name := "b".toList, opts := Dict.empty, filter := none, actions := [], error := true },
   { name := "c".toList, opts := Dict.empty, filter := none, actions := [.action "c".toList "x".toList []] }]

example : jailsStream env false jails = some
    [.add "a".toList "auto".toList, setCmd "a".toList "bantime" (some (.str "1h".toList)), setCmd "a".toList "ignoreself" (some (.bool true)), .configError, .add "c".toList "auto".toList, .action "c".toList "x".toList [],
     .start "a".toList, .start "c".toList] := by decide +kernel

/-- Two jails run then. -/
example : let s := Server.run goodWorld (((jailsStream env false jails).getD []).flatMap (toServer (fun _ _ => {}))) (Server.init none)
    s.1 = false ∧ s.2.jails.keys = ["a", "c"] ∧ (s.2.jails.get? "a").map (fun j => (j.options.get? "bantime", j.options.get? "ignoreself")) = some (some "1h", some "True") := by decide +kernel

end ReaderExample

open ReaderExample in
/-- The jail sets `maxlines`, but the value of `[Init]` of the filter is used; a `datepattern` of the jail is used instead of that of the parameters. -/
theorem C66_refuted_maxlines :
    sect (("maxlines", "20") :: jail) "maxlines" = .value "20".toList ∧ effective "maxlines" (list (cmdsOf Dict.empty (("maxlines", "20") :: jail))) = some (some (.int 10)) ∧
    effective "datepattern" (list (cmdsOf (Dict.empty.insert "datepattern" (some (.str "{^LN-BEG}".toList))) (("datepattern", "%s") :: jail))) = some (some (.str "%s".toList)) := by
  decide +kernel

open ReaderExample in
/-- The journal match of the jail comes in addition to that of `[Init]` of the filter. -/
theorem C66_refuted_journalmatch :
    (list (cmdsOf Dict.empty (("journalmatch", "_UID=1") :: jail))).filter (fun c => match c with | .set _ (k :: _) => decide (k = arg "addjournalmatch".toList) | _ => false) =
      [.set "mongo".toList [arg "addjournalmatch".toList, arg "_COMM=mongo".toList], .set "mongo".toList [arg "addjournalmatch".toList, arg "_UID=1".toList]] := by
  decide +kernel

open ReaderExample in
/-- `prefregex` of the jail is set before `usedns` of the filter. -/
theorem C66_refuted_usedns :
    ((list (cmdsOf Dict.empty (("prefregex", "^<HOST> <F-CONTENT>") :: jail))).drop 1).take 2 =
      [setCmd "mongo".toList "prefregex" (some (.str "^<HOST> <F-CONTENT>".toList)), setCmd "mongo".toList "usedns" (some (.str "no".toList))] := by
  decide +kernel

open ReaderExample in
/-- A parameter of the filter with a name that is a part of `datepattern` is sent as an option of the jail, other ones are not. -/
theorem C66_refuted_part :
    setCmd "mongo".toList "pattern" (some (.str "x".toList)) ∈ list (cmdsOf (Dict.empty.insert "pattern" (some (.str "x".toList))) jail) ∧
    setCmd "mongo".toList "mode" (some (.str "x".toList)) ∉ list (cmdsOf (Dict.empty.insert "mode" (some (.str "x".toList))) jail) := by
  decide +kernel

open ReaderExample in
/-- A wrong number is sent as no value, and not left to the default of the server. -/
theorem C66_refuted_number :
    effective "maxretry" (list (cmdsOf Dict.empty (("maxretry", "5 times") :: jail))) = some none := by
  decide +kernel

end Verif
