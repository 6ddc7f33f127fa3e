import Verif.Lemmas.ConfigMerge
import Verif.Lemmas.ConfigIncludes
import Verif.Lemmas.ConfigValues

/-!
# C45: later configuration files override earlier ones
-/

namespace Verif

open Config Spec.Config

/-- contents of files -/
def contents (fs : FileSys) (l : List String) : List Cfg := l.filterMap (fun f => (fs.parse f).map (·.cfg))

theorem contents_readable (fs : FileSys) (l : List String) : contents fs (l.filter (fun f => (fs.parse f).isSome)) = contents fs l := by
  unfold contents
  induction l with
  | nil => rfl
  | cons f l ih => cases h : fs.parse f <;> simp [h, ih]

theorem read_merged {fs : FileSys} {n : Nat} {names l : List String} {c : Cfg} (h : Config.read fs n names empty = some (l, c)) : c = mergeAll empty (contents fs l) := by
  unfold Config.read at h
  cases hi : getIncludes fs n [] names with
  | none => rw [hi] at h; cases h
  | some fl =>
    rw [hi, Option.map_some, mergeFiles_eq] at h
    cases h
    rw [contents_readable]
    rfl

/-- What sections contribute is determined. -/
theorem C45_written (l : List (String × Section)) : ∃ w, Written l w := ⟨_, written_targets l⟩

/-- The value of an option is the last one given to it in the files read, and `known` is the one before; the same holds for defaults. There are no other
sections than those of the files. -/
theorem C45_value (fs : FileSys) (n : Nat) (names l : List String) (c : Cfg) (h : Config.read fs n names empty = some (l, c)) (hk : NoKnown (contents fs l))
    (w : List (String × Section)) (hw : Written (sectionsOf (contents fs l)) w) (sec opt : String) (hs : ∀ m, sec ≠ "KNOWN/" ++ m) :
    (c.sections.get? sec).bind (·.get? opt) = (assigned w sec opt).getLast? ∧
    (c.sections.get? ("KNOWN/" ++ sec)).bind (·.get? opt) = (assigned w sec opt).dropLast.getLast? ∧
    c.defaults.get? opt = (assignedDefault (contents fs l) opt).getLast? ∧
    ((∃ s, c.sections.get? sec = some s) ↔ ∃ x ∈ w, x.1 = sec) := by
  have hi : Inv (mergeAll empty (contents fs l)) _ := inv_mergeAll (contents fs l) inv_nil (fun ns hn ⟨m, e⟩ => hk ns hn m e)
  rw [List.nil_append] at hi
  have hs' : ¬IsKnown sec := fun ⟨m, e⟩ => hs m e
  rw [read_merged h]
  refine ⟨?_, ?_, ?_, ?_⟩
  · have := hi.sec sec hs' opt
    rw [written_assigned hw] at this
    exact this
  · have := hi.known sec opt
    rw [written_assigned hw] at this
    exact this
  · rw [defaults_mergeAll]; simp [empty]
  · rw [hi.ex sec hs', written_mem hw]

/-- the values of an option in files that have the section, in order -/
def valuesIn (files : List Cfg) (sec opt : String) : List Value := files.filterMap (fun f => (f.sections.get? sec).bind (·.get? opt))

theorem assigned_plain {opt sec : String} (ho : '?' ∉ opt.toList) (hs : ∀ base cond, ¬Conditional sec base cond) : ∀ (l : List (String × Section)),
    (l.map Prod.fst).Nodup → assigned (targets l) sec opt = ((Dict.lookup sec l).bind (·.get? opt)).toList
  | [], _ => rfl
  | (n, s) :: l, h => by
      have h' := List.nodup_cons.1 h
      have ih := assigned_plain ho hs l h'.2
      have hc := contributes_target n s
      unfold assigned targets at ih ⊢
      rw [List.map_cons, List.filterMap_cons, ih]
      have hlk : Dict.lookup sec ((n, s) :: l) = if n = sec then some s else Dict.lookup sec l := rfl
      rw [hlk]
      by_cases e : n = sec
      · subst e
        have hl : Dict.lookup n l = none := (Dict.lookup_eq_none_iff _ _).2 h'.1
        rcases hc with ⟨cond, hc, _⟩ | ⟨_, e1, e2⟩
        · exact absurd hc (hs _ _)
        · dsimp only at e1 e2 ⊢
          rw [e1, e2, hl, if_pos rfl, if_pos rfl, Option.bind_some]
          cases s.get? opt <;> rfl
      · rw [if_neg e]
        rcases hc with ⟨cond, hc, hv⟩ | ⟨_, e1, e2⟩
        · have : (target n s).2.get? opt = none := by
            cases hg : (target n s).2.get? opt with
            | none => rfl
            | some v =>
              obtain ⟨k, rfl, _⟩ := (hv opt v).1 hg
              obtain ⟨_, _, _, x, r, hx⟩ := hc
              exact absurd (by rw [String.toList_append, hx]; simp) ho
          dsimp only
          rw [this]
          simp
        · dsimp only at e1 e2 ⊢
          rw [e1, if_neg e]

/-- The same for an option without a condition: of the files that set the option, the last one counts and the one before it gives `known`. -/
theorem C45_override (fs : FileSys) (n : Nat) (names l : List String) (c : Cfg) (h : Config.read fs n names empty = some (l, c)) (hk : NoKnown (contents fs l))
    (sec opt : String) (ho : '?' ∉ opt.toList) (hs : '?' ∉ sec.toList) (hs' : ∀ m, sec ≠ "KNOWN/" ++ m) :
    (c.sections.get? sec).bind (·.get? opt) = (valuesIn (contents fs l) sec opt).getLast? ∧
    (c.sections.get? ("KNOWN/" ++ sec)).bind (·.get? opt) = (valuesIn (contents fs l) sec opt).dropLast.getLast? := by
  have hv := C45_value fs n names l c h hk _ (written_targets _) sec opt hs'
  have hsc : ∀ base cond, ¬Conditional sec base cond := by
    rintro base cond ⟨rfl, _, _, x, r, hx⟩
    exact hs (by rw [String.toList_append, hx]; simp)
  have e : assigned (targets (sectionsOf (contents fs l))) sec opt = valuesIn (contents fs l) sec opt := by
    generalize contents fs l = files
    clear hv hk h
    induction files with
    | nil => rfl
    | cons f files ih =>
      have e1 : targets (sectionsOf (f :: files)) = targets f.sections.items ++ targets (sectionsOf files) := by simp [targets, sectionsOf]
      have e2 : ∀ a b, assigned (a ++ b) sec opt = assigned a sec opt ++ assigned b sec opt := fun a b => by unfold assigned; rw [List.filterMap_append]
      rw [e1, e2, ih, assigned_plain ho hsc _ f.sections.nodup]
      unfold valuesIn
      rw [List.filterMap_cons]
      change (((f.sections.get? sec).bind (·.get? opt)).toList ++ _) = _
      cases (f.sections.get? sec).bind (·.get? opt) <;> simp
  rw [e] at hv
  exact ⟨hv.1, hv.2.1⟩

/-- Files of a name: `.conf`, those of the directory with extension `.conf` in alphabetical order, `.local`, those of the directory with extension
`.local` in alphabetical order; the ones that exist. -/
theorem C45_files (fs : FileSys) (base : String) : ∃ d1 d2, configFiles fs base =
      [base ++ ".conf"].filter fs.isFile ++ d1 ++ [base ++ ".local"].filter fs.isFile ++ d2 ∧
    d1.Perm ((fs.globConf (base ++ ".d")).filter fs.isFile) ∧ d1.Pairwise (· ≤ ·) ∧
    d2.Perm ((fs.globLocal (base ++ ".d")).filter fs.isFile) ∧ d2.Pairwise (· ≤ ·) := by
  refine ⟨(sorted (fs.globConf (base ++ ".d"))).filter fs.isFile, (sorted (fs.globLocal (base ++ ".d"))).filter fs.isFile, ?_, ?_, ?_, ?_, ?_⟩
  · unfold configFiles
    rw [List.filter_append, List.filter_append, List.filter_append]
  · exact (sorted_perm _).filter _
  · exact (sorted_pairwise _).sublist List.filter_sublist
  · exact (sorted_perm _).filter _
  · exact (sorted_pairwise _).sublist List.filter_sublist

/-- Reading files one after the other, the list of files is not changed if files with extension `.local` are in it. -/
theorem C45_locals (fs : FileSys) (names : List String) (h : ∀ f ∈ names, fs.isFile (fs.localName f) = true → fs.localName f ∈ names) :
    expandLocal fs names = names := by
  have : ∀ l : List String, (∀ f ∈ l, f ∈ names) →
      l.flatMap (fun f => if fs.localName f ∉ names ∧ fs.isFile (fs.localName f) then [f, fs.localName f] else [f]) = l := by
    intro l
    induction l with
    | nil => intro _; rfl
    | cons f l ih =>
      intro hl
      rw [List.flatMap_cons, ih (fun x hx => hl x (List.mem_cons_of_mem _ hx)), if_neg (fun e => e.1 (h f (hl f (List.mem_cons_self ..)) e.2))]
      rfl
  exact this names (fun _ h => h)

/-- Files with extension `.local` are added after the ones they belong to, if they exist and are not in the list. -/
theorem C45_local (fs : FileSys) (names : List String) : expandLocal fs names =
    names.flatMap (fun f => f :: [fs.localName f].filter (fun g => decide (g ∉ names) && fs.isFile g)) := by
  unfold expandLocal
  congr 1
  funext f
  by_cases h : fs.localName f ∉ names ∧ fs.isFile (fs.localName f) = true
  · rw [if_pos h]; simp [h.1, h.2]
  · rw [if_neg h]
    by_cases h1 : fs.localName f ∈ names
    · simp [h1]
    · have : fs.isFile (fs.localName f) = false := by
        cases h2 : fs.isFile (fs.localName f) with
        | false => rfl
        | true => exact absurd ⟨h1, h2⟩ h
      simp [this]

/-- The files read for one file: `before`, the file, `after`, and so on for these. -/
theorem C45_includes (fs : FileSys) (seen : List String) (f : String) (l : List String) :
    (∃ n, includes fs n seen f = some l) ↔ ReadingOrder fs (fun seen f l => ∃ n, includes fs n seen f = some l) seen f l :=
  reads_iff fs seen f l

/-- There is at most one such list, and all files in it can be read. -/
theorem C45_determined (fs : FileSys) (n m : Nat) (seen : List String) (f : String) (l l' : List String) (h : includes fs n seen f = some l)
    (h' : includes fs m seen f = some l') : l = l' :=
  reads_unique ⟨n, h⟩ ⟨m, h'⟩

/-- Reading ends, also if includes form a loop, as long as files with extension `.local` do not include others. -/
theorem C45_ends (fs : FileSys) (files : List String) (hc : Closed fs files) (hl : PlainLocals fs) (f : String) (hf : f ∈ files) :
    ∃ l, includes fs (3 * files.length + 1) [] f = some l := by
  apply includes_ends hc hl _ _ _ hf
  unfold Config.measure
  rw [if_neg List.not_mem_nil]
  have := List.length_filter_le (fun x => decide (x ∉ ([] : List String))) files
  omega

/-- Without loops reading ends as well, and the list for a file does not depend on where it is included. -/
theorem C45_seen (fs : FileSys) (rank : String → Nat) (ha : Acyclic fs rank) (seen : List String) (f : String) (hs : ∀ s ∈ seen, rank f < rank s) :
    ∃ l, includes fs (rank f + 1) seen f = some l ∧ includes fs (rank f + 1) [] f = some l :=
  includes_acyclic ha _ seen f (Nat.lt_succ_self _) hs

/-- A file with extension `.local` that includes the file it belongs to cannot be read: the recursion never ends. -/
theorem C45_refuted_local_include (fs : FileSys) (base : String) (cf cg : CfgFile) (hf : fs.parse (base ++ ".conf") = some cf)
    (hg : fs.parse (base ++ ".local") = some cg) (hl : fs.localName (base ++ ".conf") = base ++ ".local") (hi : fs.isFile (base ++ ".local") = true)
    (hm : base ++ ".conf" ∈ (cg.before ++ cg.after).map (fs.resolve (base ++ ".local"))) (n : Nat) : readName fs n base = none := by
  have hne : base ++ ".local" ≠ base ++ ".conf" := by
    intro e
    have := congrArg String.toList e
    simp at this
  have hmem : base ++ ".local" ∈ configFiles fs base := by
    unfold configFiles
    rw [List.mem_filter]
    exact ⟨by simp, hi⟩
  have hinc := includes_endless hf hg hl hne hi hm n [] List.not_mem_nil
  have hnone : ∀ names : List String, base ++ ".local" ∈ names → concat (includes fs n []) names = none := by
    intro names
    induction names with
    | nil => intro h; cases h
    | cons x names ih =>
      intro h
      cases he : concat (includes fs n []) (x :: names) with
      | none => rfl
      | some l =>
        obtain ⟨_, _, h1, h2, _⟩ := concat_cons_some.1 he
        rcases List.mem_cons.1 h with e | h
        · rw [← e, hinc] at h1; cases h1
        · rw [ih h] at h2; cases h2
  have hget : getIncludes fs n [] (configFiles fs base) = none := by
    apply hnone
    unfold expandLocal
    rw [List.mem_flatMap]
    refine ⟨_, hmem, ?_⟩
    split <;> simp
  unfold Config.readName
  dsimp only
  rw [if_neg (List.ne_nil_of_mem hmem)]
  unfold Config.read
  rw [hget]
  rfl

/-- Reading the files of a name succeeds iff there is one and all of them could be read, including the ones they include. -/
theorem C45_success (fs : FileSys) (n : Nat) (base : String) (ok : Bool) (c : Cfg) (h : readName fs n base = some (ok, c)) :
    (ok = true ↔ configFiles fs base ≠ [] ∧ ∀ f ∈ configFiles fs base, fs.parse f ≠ none) ∧
    (configFiles fs base ≠ [] → ∃ l, Config.read fs n (configFiles fs base) empty = some (l, c)) := by
  unfold Config.readName at h
  dsimp only at h
  by_cases e : configFiles fs base = []
  · rw [if_pos e] at h
    cases h
    exact ⟨⟨fun h => (by cases h), fun h => absurd e h.1⟩, fun h => absurd e h⟩
  · rw [if_neg e] at h
    cases hr : Config.read fs n (configFiles fs base) empty with
    | none => rw [hr] at h; cases h
    | some x =>
      obtain ⟨l, c'⟩ := x
      rw [hr, Option.map_some] at h
      cases h
      refine ⟨?_, fun _ => ⟨l, rfl⟩⟩
      rw [decide_eq_true_iff]
      have hl : ∀ f, f ∈ configFiles fs base → (f ∈ l ↔ fs.parse f ≠ none) := by
        unfold Config.read at hr
        cases hg : getIncludes fs n [] (configFiles fs base) with
        | none => rw [hg] at hr; cases hr
        | some fl =>
          rw [hg, Option.map_some, mergeFiles_eq] at hr
          have e1 : l = fl.filter (fun f => (fs.parse f).isSome) := by cases hr; rfl
          intro f hf
          rw [e1, List.mem_filter]
          constructor
          · rintro ⟨_, h⟩ h0; rw [h0] at h; cases h
          · intro hp
            refine ⟨?_, by cases hq : fs.parse f <;> simp_all⟩
            have hin : ∀ (names fl : List String), concat (includes fs n []) names = some fl → f ∈ names → f ∈ fl := by
              intro names
              induction names with
              | nil => intro _ _ h; cases h
              | cons x names ih =>
                intro fl h hm
                obtain ⟨a, b, h1, h2, rfl⟩ := concat_cons_some.1 h
                rcases List.mem_cons.1 hm with rfl | hm
                · cases n with
                  | zero => simp [includes] at h1
                  | succ n =>
                    rw [includes_some] at h1
                    cases hq : fs.parse f with
                    | none => exact absurd hq hp
                    | some y =>
                      rw [hq] at h1
                      obtain ⟨_, _, rfl, _⟩ := h1
                      simp
                · exact List.mem_append_right _ (ih b h2 hm)
            apply hin _ _ hg
            unfold expandLocal
            rw [List.mem_flatMap]
            refine ⟨f, hf, ?_⟩
            split <;> simp
      constructor
      · rintro ⟨h1, _⟩
        exact ⟨e, fun f hf => (hl f hf).1 (h1 f hf)⟩
      · rintro ⟨_, h2⟩
        have h1 : ∀ f ∈ configFiles fs base, f ∈ l := fun f hf => (hl f hf).2 (h2 f hf)
        obtain ⟨f, hf⟩ := List.exists_mem_of_ne_nil _ e
        exact ⟨h1, List.ne_nil_of_mem (h1 f hf)⟩

/-- Without includes the files are read in the order given. -/
theorem C45_plain (fs : FileSys) (n : Nat) (names : List String) (hl : ∀ f ∈ names, fs.isFile (fs.localName f) = true → fs.localName f ∈ names)
    (hp : ∀ f ∈ names, ∀ c, fs.parse f = some c → c.before = [] ∧ c.after = []) (c : Cfg) :
    ∃ d, Config.read fs (n + 1) names c = some (names.filter (fun f => (fs.parse f).isSome), d) := by
  have : ∀ l : List String, (∀ f ∈ l, f ∈ names) → concat (includes fs (n + 1) []) l = some (l.filter (fun f => (fs.parse f).isSome)) := by
    intro l
    induction l with
    | nil => intro _; rfl
    | cons f l ih =>
      intro h
      rw [concat_cons_some]
      refine ⟨[f].filter (fun f => (fs.parse f).isSome), _, ?_, ih (fun x hx => h x (List.mem_cons_of_mem _ hx)), by
        cases hf : fs.parse f <;> simp [hf]⟩
      rw [includes_some]
      cases hf : fs.parse f with
      | none => simp [hf]
      | some x =>
        obtain ⟨h1, h2⟩ := hp f (h f (List.mem_cons_self ..)) x hf
        dsimp only
        rw [h1, h2]
        exact ⟨[], [], by simp [hf], rfl, rfl⟩
  unfold Config.read getIncludes
  rw [C45_locals fs names hl, this names (fun _ h => h), Option.map_some, mergeFiles_eq]
  refine ⟨mergeAll c (contents fs (names.filter (fun f => (fs.parse f).isSome))), ?_⟩
  rw [List.filter_filter]
  simp only [Bool.and_self]
  rfl

/-! ## Values -/

/-- The text of an option: its value in the section, or the default, with references replaced by the values they stand for, nested at most ten deep. -/
theorem C45_get (c : Cfg) (vars : Section) (sec opt : String) (s : Section) (hs : c.sections.get? sec = some s) (hd : sec ≠ "DEFAULT") (r : List String) :
    Config.get c vars sec opt = .ok r ↔
      ∃ v, (vars.get? opt).or ((s.get? opt).or (c.defaults.get? opt)) = some v ∧ Expands (Means c sec vars s) 10 v r := by
  unfold Config.get
  rw [if_neg hd, hs]
  dsimp only
  have hrel : Looks (named c sec ⟨vars, s, c.defaults⟩) = Means c sec vars s := by
    funext name v
    exact propext (named_means c sec vars s name v)
  unfold Names.get?
  dsimp only
  cases hv : (vars.get? opt).or ((s.get? opt).or (c.defaults.get? opt)) with
  | none => simp
  | some v =>
    dsimp only
    have := interpolate_iff c sec (named c sec ⟨vars, s, c.defaults⟩) maxDepth v ⟨vars, s, c.defaults⟩ (fun _ => rfl) r
    rw [this, hrel]
    constructor
    · intro h; exact ⟨v, rfl, h⟩
    · rintro ⟨w, hw, h⟩; cases hw; exact h

/-- There is no value without the section. -/
theorem C45_no_section (c : Cfg) (vars : Section) (sec opt : String) (hs : c.sections.get? sec = none) (hd : sec ≠ "DEFAULT") :
    Config.get c vars sec opt = .error .noSection := by
  unfold Config.get
  rw [if_neg hd, hs]

/-- An option may extend the value of earlier files by means of `known`. -/
theorem C45_extends (c : Cfg) (sec opt : String) (s ks : Section) (hd : sec ≠ "DEFAULT") (hs : c.sections.get? sec = some s)
    (hks : c.sections.get? ("KNOWN/" ++ sec) = some ks) (old new : List String) (hold : ks.get? opt = some (old.map .lit))
    (hnew : s.get? opt = some (.ref ("known/" ++ opt) :: new.map .lit)) (ho : opt ≠ "") (h1 : s.get? ("known/" ++ opt) = none)
    (h2 : c.defaults.get? ("known/" ++ opt) = none) : Config.get c Dict.empty sec opt = .ok (old ++ new) := by
  rw [C45_get c Dict.empty sec opt s hs hd]
  refine ⟨.ref ("known/" ++ opt) :: new.map .lit, by simp [hnew], .text ?_ ?_⟩
  · unfold Means
    have hn : ("known/" ++ opt) ≠ "__name__" := by
      intro e
      have := congrArg String.toList e
      simp at this
    rw [if_neg hn, Dict.get?_empty, h1, h2]
    refine ⟨"known", opt, ⟨rfl, by decide, ho, by decide⟩, ?_⟩
    unfold valueOf
    rw [if_neg (by decide +kernel), if_pos (by decide +kernel), hks]
    simp [hold]
  · generalize 9 = m
    clear hnew
    induction new with
    | nil => exact .nil
    | cons x new ih => exact .lit ih

/-- It cannot be extended twice: if the value before refers to `known` as well, there is no text. -/
theorem C45_refuted_known_twice (c : Cfg) (sec opt : String) (s ks : Section) (hd : sec ≠ "DEFAULT") (hs : c.sections.get? sec = some s)
    (hks : c.sections.get? ("KNOWN/" ++ sec) = some ks) (v2 v3 : Value) (hold : ks.get? opt = some v2) (hnew : s.get? opt = some v3)
    (hv2 : Tok.ref ("known/" ++ opt) ∈ v2) (hv3 : Tok.ref ("known/" ++ opt) ∈ v3) (ho : opt ≠ "") (h1 : s.get? ("known/" ++ opt) = none)
    (h2 : c.defaults.get? ("known/" ++ opt) = none) (r : List String) : Config.get c Dict.empty sec opt ≠ .ok r := by
  intro h
  have hrel : Looks (named c sec ⟨Dict.empty, s, c.defaults⟩) = Means c sec Dict.empty s := by
    funext name v
    exact propext (named_means c sec Dict.empty s name v)
  obtain ⟨v, hv, hx⟩ := (C45_get c Dict.empty sec opt s hs hd r).1 h
  rw [Dict.get?_empty, hnew] at hv
  have hv : v3 = v := by simpa using hv
  subst hv
  have hm : named c sec ⟨Dict.empty, s, c.defaults⟩ ("known/" ++ opt) = some v2 := by
    rw [named_means]
    unfold Means
    have hn : ("known/" ++ opt) ≠ "__name__" := by
      intro e
      have := congrArg String.toList e
      simp at this
    rw [if_neg hn, Dict.get?_empty, h1, h2]
    refine ⟨"known", opt, ⟨rfl, by decide, ho, by decide⟩, ?_⟩
    unfold valueOf
    rw [if_neg (by decide +kernel), if_pos (by decide +kernel), hks]
    simp [hold]
  rw [← hrel] at hx
  rcases expands_ref hx hv3 with ⟨t, ht⟩ | ⟨w, a, hw, ha⟩
  · rw [hm] at ht
    cases ht
    simp at hv2
  · rw [hm] at hw
    cases hw
    exact expands_loop hm hv2 _ _ ha

/-! ## Examples -/

/-- dictionary of a list -/
def section' (l : List (String × Value)) : Section := l.foldl (fun d kv => d.insert kv.1 kv.2) Dict.empty

/-- a file -/
def file (d : List (String × Value)) (ss : List (String × List (String × Value))) (before after : List String := []) : CfgFile :=
  ⟨⟨section' d, ss.foldl (fun d kv => d.insert kv.1 (section' kv.2)) Dict.empty⟩, before, after⟩

/-- files of two jails and of a filter -/
def sampleFiles : String → Option CfgFile
  | "jail.conf" => some (file [("maxretry", [.lit "5"])] [("sshd", [("port", [.lit "ssh"]), ("bantime", [.lit "600"])])] ["paths.conf"])
  | "paths.conf" => some (file [("maxretry", [.lit "3"]), ("syslog", [.lit "/var/log/syslog"])] [])
  | "jail.d/a.conf" => some (file [] [("sshd", [("bantime", [.lit "900"])])])
  | "jail.d/b.conf" => some (file [] [("sshd", [("bantime", [.lit "1000"]), ("logpath", [.ref "syslog"])]), ("web", [])])
  | "jail.local" => some (file [] [("sshd", [("port", [.ref "known/port", .lit ",2222"])])])
  | "act.conf" => some (file [] [("Init", [("bin", [.lit "iptables"])]), ("Init?family=inet6", [("bin", [.lit "ip6tables"])])])
  | "three.conf" => some (file [] [("D", [("rx", [.lit "a"])])])
  | "three.d/x.conf" => some (file [] [("D", [("rx", [.ref "known/rx", .lit "b"])])])
  | "three.local" => some (file [] [("D", [("rx", [.ref "known/rx", .lit "c"])])])
  | "own.conf" => some (file [] [("D", [("rx", [.lit "a"])])])
  | "own.local" => some (file [] [] ["own.conf"])
  | "loop.conf" => some (file [] [] ["pool.conf"])
  | "pool.conf" => some (file [] [] [] ["loop.conf"])
  | "self.conf" => some (file [] [] ["self.conf"])
  | _ => none

/-- files -/
def sampleSys : FileSys where
  parse := sampleFiles
  isFile := fun f => (sampleFiles f).isSome
  localName := fun f =>
    if f = "jail.conf" then "jail.local" else if f = "three.conf" then "three.local" else if f = "own.conf" then "own.local"
    else if f = "jail.local" ∨ f = "three.local" ∨ f = "own.local" then f else f ++ ".local"
  resolve := fun _ r => r
  globConf := fun d => if d = "jail.d" then ["jail.d/b.conf", "jail.d/a.conf"] else if d = "three.d" then ["three.d/x.conf"] else []
  globLocal := fun _ => []

/-- value of an option after reading -/
def valueAfter (base sec opt : String) : Option (Bool × Except GetError (List String)) :=
  (readName sampleSys 5 base).map (fun x => (x.1, Config.get x.2 Dict.empty sec opt))

instance {ε α : Type} [DecidableEq ε] [DecidableEq α] : DecidableEq (Except ε α) := fun
  | .error a, .error b => if h : a = b then isTrue (by rw [h]) else isFalse (fun e => by cases e; exact h rfl)
  | .ok a, .ok b => if h : a = b then isTrue (by rw [h]) else isFalse (fun e => by cases e; exact h rfl)
  | .error _, .ok _ => isFalse (fun e => by cases e)
  | .ok _, .error _ => isFalse (fun e => by cases e)

/-- C45_files, C45_includes -/
example : (readName sampleSys 5 "jail").isSome ∧ configFiles sampleSys "jail" = ["jail.conf", "jail.d/a.conf", "jail.d/b.conf", "jail.local"] ∧
    (Config.read sampleSys 5 (configFiles sampleSys "jail") empty).map (·.1) = some ["paths.conf", "jail.conf", "jail.d/a.conf", "jail.d/b.conf", "jail.local"] := by
  decide +kernel

/-- C45_value, C45_override: the last file counts, also for defaults -/
example : valueAfter "jail" "sshd" "bantime" = some (true, .ok ["1000"]) ∧ valueAfter "jail" "sshd" "maxretry" = some (true, .ok ["5"]) ∧
    valueAfter "jail" "web" "maxretry" = some (true, .ok ["5"]) := by decide +kernel

/-- C45_extends, C45_get -/
example : valueAfter "jail" "sshd" "port" = some (true, .ok ["ssh", ",2222"]) ∧ valueAfter "jail" "sshd" "logpath" = some (true, .ok ["/var/log/syslog"]) := by
  decide +kernel

/-- C45_no_section, C45_success -/
example : valueAfter "jail" "smtp" "port" = some (true, .error .noSection) ∧ valueAfter "jail" "web" "port" = some (true, .error .noOption) ∧
    valueAfter "none" "web" "port" = some (false, .error .noSection) := by decide +kernel

/-- conditional sections -/
example : valueAfter "act" "Init" "bin" = some (true, .ok ["iptables"]) ∧ valueAfter "act" "Init" "bin?family=inet6" = some (true, .ok ["ip6tables"]) ∧
    Conditional "Init?family=inet6" "Init" "?family=inet6" := by
  refine ⟨by decide +kernel, by decide +kernel, by decide +kernel, by decide, by decide +kernel, 'f', "amily=inet6".toList, by decide +kernel⟩

/-- C45_refuted_known_twice -/
example : valueAfter "three" "D" "rx" = some (true, .error .depth) := by decide +kernel

/-- C45_refuted_local_include -/
example : valueAfter "own" "D" "rx" = none ∧ (readName sampleSys 100 "own").isNone := by decide +kernel

/-- C45_ends: loops end; a file that includes itself is read twice -/
example : includes sampleSys 20 [] "loop.conf" = some ["pool.conf", "loop.conf"] ∧ includes sampleSys 20 [] "self.conf" = some ["self.conf", "self.conf"] := by
  decide +kernel

end Verif
