import Verif.Lemmas.ReaderOptions

/-! # Order of the commands of a jail -/

namespace Verif.Reader

open ReaderSpec

theorem isSep_iff (c : Char) : isSep c = true ↔ isSeparator c := by
  have h : ∀ d : Char, c = d ↔ c.toNat = d.toNat := fun d => ⟨fun e => e ▸ rfl, fun e => Char.ext (UInt32.toNat_inj.mp e)⟩
  unfold isSep isSeparator
  rw [decide_eq_true_iff]
  simp only [List.mem_cons, List.not_mem_nil, or_false]
  rw [h '\x0b', h '\x0c']
  have e1 : '\x0b'.toNat = 11 := by decide
  have e2 : '\x0c'.toNat = 12 := by decide
  rw [e1, e2]
  grind

theorem words_splitwords : ∀ s : Str, Words s (splitwords s) := by
  intro s
  induction s with
  | nil => exact .nil
  | cons c cs ih =>
    unfold splitwords
    split
    · rename_i h; exact .sep c cs _ ((isSep_iff c).mp h) ih
    · rename_i h
      have h : ¬isSeparator c := fun e => h ((isSep_iff c).mpr e)
      cases cs with
      | nil => exact .last [c] (by simp) (fun x hx => by simp at hx; rw [hx]; exact h)
      | cons d cs =>
        simp only
        have hc : ∀ w : Str, (∀ x ∈ w, ¬isSeparator x) → ∀ x ∈ c :: w, ¬isSeparator x := by
          intro w hw x hx
          rcases List.mem_cons.mp hx with rfl | hx
          · exact h
          · exact hw x hx
        split
        · rename_i hd
          have hd := (isSep_iff d).mp hd
          have inv : ∀ {s ws}, Words s ws → s = d :: cs → Words cs ws := by
            intro s ws hw
            cases hw with
            | nil => intro e; cases e
            | sep x s ws hx hw => intro e; cases e; exact hw
            | last w hw hs => intro e; subst e; exact absurd hd (hs d (List.mem_cons_self ..))
            | word w s x ws hw hs hx hr =>
              intro e
              cases w with
              | nil => exact absurd rfl hw
              | cons y w => cases e; exact absurd hd (hs d (List.mem_cons_self ..))
          exact .word [c] cs d _ (by simp) (hc [] (fun _ hx => by cases hx)) hd (inv ih rfl)
        · rename_i hd
          have hd : ¬isSeparator d := fun e => hd ((isSep_iff d).mpr e)
          have inv : ∀ {s ws}, Words s ws → s = d :: cs → ∃ w ws', ws = w :: ws' ∧ Words (c :: d :: cs) ((c :: w) :: ws') := by
            intro s ws hw
            cases hw with
            | nil => intro e; cases e
            | sep x s ws hx hw => intro e; cases e; exact absurd hx hd
            | last w hw hs => intro e; subst e; exact ⟨_, _, rfl, .last _ (by simp) (hc _ hs)⟩
            | word w s x ws hw hs hx hr =>
              intro e
              rw [← e]
              exact ⟨_, _, rfl, .word (c :: w) s x ws (by simp) (hc _ hs) hx hr⟩
          obtain ⟨w, ws', e, hw⟩ := inv ih rfl
          rw [e]
          exact hw

/-- Form of the commands with parameters. -/
def ParamForm (jail : Str) (c : Cmd) : Prop :=
  (∃ k rs, c = .multiSet jail k rs ∧ (k = "addfailregex" ∨ k = "addignoreregex")) ∨
  ∃ k args, c = .set jail (arg (String.toList k) :: args) ∧ k ≠ "addlogpath" ∧ (k = "addfailregex" ∨ k = "addignoreregex" → ∃ r, args = [arg r]) ∧ (k ∉ addNames → ∃ v, args = [v])

theorem arg_inj {k k' : String} : arg k.toList = arg k'.toList ↔ k = k' := by
  constructor
  · intro e
    have : k.toList = k'.toList := by injection e with e; injection e
    exact String.toList_inj.mp this
  · rintro rfl; rfl

theorem ParamForm.isParam {jail : Str} {c : Cmd} (h : ParamForm jail c) : isParam c = true ∧ target c = some jail := by
  rcases h with ⟨k, rs, rfl, _⟩ | ⟨k, args, rfl, hk, _⟩
  · exact ⟨rfl, rfl⟩
  · refine ⟨?_, rfl⟩
    show decide (arg k.toList ≠ arg "addlogpath".toList) = true
    rw [decide_eq_true_iff]
    exact fun e => hk (arg_inj.mp e)

theorem ParamForm.setCmd {jail : Str} {k : String} {v : Option Val} (h : k ∉ addNames) : ParamForm jail (setCmd jail k v) := by
  refine .inr ⟨k, [v], rfl, ?_, ?_, fun _ => ⟨v, rfl⟩⟩
  · rintro rfl; exact h (by decide)
  · rintro (rfl | rfl) <;> exact absurd (by decide) h

theorem mem_usedns {jail : Str} {items : List (String × Option Val)} {c : Cmd} (h : c ∈ usednsCmds jail items) : ∃ v, c = setCmd jail "usedns" (some v) := by
  unfold usednsCmds at h
  rw [List.mem_filterMap] at h
  obtain ⟨kv, _, h⟩ := h
  split at h
  · split at h
    · rename_i e; cases h; rw [e]; exact ⟨_, rfl⟩
    · cases h
  · cases h

theorem mem_prio {jail : Str} {items : List (String × Option Val)} {c : Cmd} (h : c ∈ prioCmds jail items) : ∃ k v, (k = "maxlines" ∨ k = "prefregex") ∧ c = setCmd jail k (some v) := by
  unfold prioCmds at h
  rw [List.mem_filterMap] at h
  obtain ⟨kv, _, h⟩ := h
  split at h
  · split at h
    · rename_i e; cases h; exact ⟨_, _, e, rfl⟩
    · cases h
  · cases h

theorem mem_appended {env : Env} {jail : Str} {kv : String × Option Val} {a : List Cmd} (h : appended env jail kv = some a) : ∀ c ∈ a, ParamForm jail c := by
  unfold appended at h
  split at h
  · cases h; intro c hc; cases hc
  · rename_i v _
    split at h
    · rename_i hk
      cases h
      intro c hc
      unfold regexCmds at hc
      dsimp only at hc
      split at hc
      · cases hc
      · rcases List.mem_singleton.mp hc with rfl
        refine .inr ⟨"add" ++ kv.1, _, rfl, ?_, fun _ => ⟨_, rfl⟩, fun _ => ⟨_, rfl⟩⟩
        rcases hk with e | e <;> rw [e] <;> decide
      · rcases List.mem_singleton.mp hc with rfl
        exact .inl ⟨_, _, rfl, by rcases hk with e | e <;> rw [e] <;> decide⟩
    · split at h
      · cases h; intro c hc; cases hc
      · split at h
        · rename_i hp
          cases h
          intro c hc
          rcases List.mem_singleton.mp hc with rfl
          refine .setCmd ?_
          intro hm
          have : ∀ k ∈ addNames, partOf k.toList "datepattern".toList = false := by decide +kernel
          rw [this _ hm] at hp
          cases hp
        · split at h
          · intro c hc
            obtain ⟨args, rfl⟩ := mem_journalCmds h c hc
            exact .inr ⟨"addjournalmatch", args, rfl, by decide, fun e => absurd e (by decide), fun e => absurd (by decide) e⟩
          · cases h; intro c hc; cases hc

theorem mem_restCmds {env : Env} {jail : Str} : ∀ {items : List (String × Option Val)} {r : List Cmd}, restCmds env jail items = some r → ∀ c ∈ r, ParamForm jail c := by
  intro items
  induction items with
  | nil => intro r h; cases h; intro c hc; cases hc
  | cons kv items ih =>
    intro r h
    rw [restCmds] at h
    cases ha : appended env jail kv with
    | none => rw [ha] at h; cases h
    | some a =>
      rw [ha] at h
      cases hr : restCmds env jail items with
      | none => rw [hr] at h; cases h
      | some r' =>
        rw [hr] at h
        cases h
        intro c hc
        rcases List.mem_append.mp hc with hc | hc
        · exact mem_appended ha c hc
        · exact ih hr c hc

theorem mem_plain {jail : Str} {o : Opts} (hn : Named o) {c : Cmd} (h : c ∈ o.items.flatMap (plainCmds jail)) : ParamForm jail c := by
  rw [List.mem_flatMap] at h
  obtain ⟨kv, hkv, h⟩ := h
  have hk := hn kv.1 (List.mem_map_of_mem hkv)
  unfold plainCmds at h
  split at h
  · cases h
  · split at h
    · rcases List.mem_singleton.mp h with rfl
      exact .inr ⟨"addignoreip", _, rfl, by decide, fun e => absurd e (by decide), fun e => absurd (by decide) e⟩
    · split at h
      · cases h
      · rcases List.mem_singleton.mp h with rfl
        refine .setCmd ?_
        intro hm
        have : ∀ k ∈ addNames, k ∉ jailTemplates.map (·.name) := by decide
        exact this _ hm hk

theorem not_setBy {key : String} {l : List Cmd} (h : l.flatMap (setsBy key) = []) : ∀ c ∈ l, setBy key c = none := by
  intro c hc
  rw [List.flatMap_eq_nil_iff] at h
  have := h c hc
  unfold setsBy at this
  cases hs : setBy key c with
  | none => rfl
  | some v => rw [hs] at this; cases this

theorem setBy_setCmd (key : String) (jail : Str) (v : Option Val) : setBy key (setCmd jail key v) = some v := if_pos rfl

theorem early_notAdd {k : String} (h : early k) : k ∉ addNames ∧ partOf k.toList "datepattern".toList = false ∧ k ∈ ignoreOpts := by
  rcases h with rfl | rfl | rfl <;> exact ⟨by decide, by decide +kernel, by decide⟩

/-- The parts of the stream. -/
theorem order {env : Env} {allow : Bool} {j : JailSrc} {l : List Cmd} (h : convert env allow j = .cmds l false) (hn : Named j.opts) :
    ∃ e r, l = .add j.name (backend j.opts) :: (e ++ r ++ (logsFor env j).getD [] ++ j.actions) ∧ (∀ c ∈ e, isEarly c) ∧ (∀ c ∈ r, ¬isEarly c) ∧ ∀ c ∈ e ++ r, ParamForm j.name c := by
  obtain ⟨fo, hf⟩ := filterOpts_exists h
  obtain ⟨rf, rj, h1, h2, rfl⟩ := convert_cmds h hf
  have hsu : ∀ (items : List (String × Option Val)), ∀ c ∈ usednsCmds j.name items, isEarly c ∧ ParamForm j.name c := by
    intro items c hc
    obtain ⟨v, rfl⟩ := mem_usedns hc
    exact ⟨⟨"usedns", .inl rfl, by rw [setBy_setCmd]; simp⟩, .setCmd (by decide)⟩
  have hsp : ∀ (items : List (String × Option Val)), ∀ c ∈ prioCmds j.name items, isEarly c ∧ ParamForm j.name c := by
    intro items c hc
    obtain ⟨k, v, hk, rfl⟩ := mem_prio hc
    exact ⟨⟨k, .inr hk, by rw [setBy_setCmd]; simp⟩, .setCmd (by rcases hk with rfl | rfl <;> decide)⟩
  have he : ∀ c ∈ usednsCmds j.name j.opts.items ++ prioCmds j.name j.opts.items ++ (usednsCmds j.name fo.items ++ prioCmds j.name fo.items), isEarly c ∧ ParamForm j.name c := by
    intro c hc
    rcases List.mem_append.mp hc with hc | hc <;> rcases List.mem_append.mp hc with hc | hc
    · exact hsu _ c hc
    · exact hsp _ c hc
    · exact hsu _ c hc
    · exact hsp _ c hc
  refine ⟨_, rf ++ rj ++ j.opts.items.flatMap (plainCmds j.name), by simp only [List.append_assoc], fun c hc => (he c hc).1, ?_, ?_⟩
  · rintro c hc ⟨k, hk, hs⟩
    obtain ⟨k1, k2, k3⟩ := early_notAdd hk
    apply hs
    rcases List.mem_append.mp hc with hc | hc
    · rcases List.mem_append.mp hc with hc | hc
      · exact not_setBy (key := k) (by rw [sets_rest k1 h1, if_neg (by rw [k2]; simp)]) c hc
      · exact not_setBy (key := k) (by rw [sets_rest k1 h2, if_neg (by rw [k2]; simp)]) c hc
    · exact not_setBy (key := k) (by rw [sets_plain k1, if_pos (.inr (.inr k3))]) c hc
  · intro c hc
    rcases List.mem_append.mp hc with hc | hc
    · exact (he c hc).2
    · rcases List.mem_append.mp hc with hc | hc
      · rcases List.mem_append.mp hc with hc | hc
        · exact mem_restCmds h1 c hc
        · exact mem_restCmds h2 c hc
      · exact mem_plain hn hc

/-- Log files in order. -/
theorem logs_spec (env : Env) (j : JailSrc) {s : Str} (h : value j.opts "logpath" = some (.str s)) (hb : isSystemd (backend j.opts) = false) :
    ∃ fs, LogFiles env.glob (some (.str s)) fs ∧ logsFor env j = some (fs.map (fun f => .set j.name [arg "addlogpath".toList, arg f.1, arg f.2])) := by
  obtain ⟨fs, h1, h2⟩ := files_logCmds env j.name (split '\n' s)
  refine ⟨fs, .text s _ fs (isLines_split s) h1, ?_⟩
  have hv : j.opts.get? "logpath" = some (some (.str s)) := by
    unfold value at h
    split at h
    · cases h; assumption
    · cases h
  unfold logsFor
  rw [hv]
  simp only [hb]
  exact congrArg some h2

theorem isLines_unique {s : Str} {a b : List Str} (ha : IsLines s a) (hb : IsLines s b) : a = b := by
  have key : ∀ (l : List Str), l ≠ [] → (∀ x ∈ l, '\n' ∉ x) → split '\n' (['\n'].intercalate l) = l := by
    have one : ∀ (x : Str), '\n' ∉ x → split '\n' x = [x] := by
      intro x
      induction x with
      | nil => intro _; rfl
      | cons c x ih =>
        intro h
        rw [split, if_neg (fun e : c = '\n' => h (e ▸ List.mem_cons_self ..)), ih (fun e => h (List.mem_cons_of_mem _ e))]
    have more : ∀ (x r : Str), '\n' ∉ x → split '\n' (x ++ '\n' :: r) = x :: split '\n' r := by
      intro x r
      induction x with
      | nil => intro _; rw [List.nil_append, split, if_pos rfl]
      | cons c x ih =>
        intro h
        rw [List.cons_append, split, if_neg (fun e : c = '\n' => h (e ▸ List.mem_cons_self ..)), ih (fun e => h (List.mem_cons_of_mem _ e))]
    intro l
    induction l with
    | nil => intro h; exact absurd rfl h
    | cons x l ih =>
      intro _ h
      cases l with
      | nil => simpa [List.intercalate] using one x (h x (List.mem_cons_self ..))
      | cons y l =>
        have e : ['\n'].intercalate (x :: y :: l) = x ++ '\n' :: ['\n'].intercalate (y :: l) := by
          simp [List.intercalate, List.intersperse]
        rw [e, more x _ (h x (List.mem_cons_self ..)), ih (by simp) (fun z hz => h z (List.mem_cons_of_mem _ hz))]
  rw [← key a ha.1 ha.2.1, ← ha.2.2, ← key b hb.1 hb.2.1, ← hb.2.2]

theorem pathOption_unique {s p o p' o' : Str} (h : PathOption s p o) (h' : PathOption s p' o') : p = p' ∧ o = o' := by
  have key : ∀ (a o b o' : Str), ' ' ∉ o → ' ' ∉ o' → a ++ ' ' :: o = b ++ ' ' :: o' → a = b ∧ o = o' := by
    intro a
    induction a with
    | nil =>
      intro o b o' ho ho' e
      cases b with
      | nil => cases e; exact ⟨rfl, rfl⟩
      | cons x b =>
        exfalso
        simp only [List.nil_append, List.cons_append, List.cons.injEq] at e
        apply ho
        rw [e.2]; simp
    | cons x a ih =>
      intro o b o' ho ho' e
      cases b with
      | nil =>
        exfalso
        simp only [List.nil_append, List.cons_append, List.cons.injEq] at e
        apply ho'
        rw [← e.2]; simp
      | cons y b =>
        simp only [List.cons_append, List.cons.injEq] at e
        obtain ⟨h1, h2⟩ := ih o b o' ho ho' e.2
        exact ⟨by rw [e.1, h1], h2⟩
  cases h with
  | plain _ hp =>
    generalize hs : s = s' at h'
    cases h' with
    | plain => subst hs; exact ⟨rfl, rfl⟩
    | option p' o' ho => subst hs; exact absurd (by simp) hp
  | option p o ho =>
    generalize hs : p ++ ' ' :: o = s' at h'
    cases h' with
    | plain _ hp => subst hs; exact absurd (by simp) hp
    | option p' o' ho' => exact key _ _ _ _ ho ho' hs

theorem files_unique {glob : Str → List Str} : ∀ {ls : List Str} {a b : List (Str × Str)}, Files glob ls a → Files glob ls b → a = b := by
  intro ls
  induction ls with
  | nil => intro a b ha hb; cases ha; cases hb; rfl
  | cons l ls ih =>
    intro a b ha hb
    cases ha with
    | cons _ p o _ fs h1 h2 =>
      cases hb with
      | cons _ p' o' _ fs' h1' h2' =>
        obtain ⟨rfl, rfl⟩ := pathOption_unique h1 h1'
        rw [ih h2 h2']

theorem logFiles_unique {glob : Str → List Str} {v : Option Val} {a b : List (Str × Str)} (ha : LogFiles glob v a) (hb : LogFiles glob v b) : a = b := by
  cases ha with
  | text s ls fs h1 h2 =>
    cases hb with
    | text _ ls' fs' h1' h2' =>
      have := isLines_unique h1 h1'
      subst this
      exact files_unique h2 h2'

theorem regexes_unique {v : Option Val} {a b : List Str} (ha : Regexes v a) (hb : Regexes v b) : a = b := by
  cases ha with
  | notGiven => cases hb; rfl
  | text s ls h =>
    cases hb with
    | text _ ls' h' => rw [isLines_unique h h']

end Verif.Reader
