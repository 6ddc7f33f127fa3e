import Verif.Spec.Reader

/-! # Lemmas about the commands of a configuration -/

namespace Verif.Reader

open ReaderSpec

/-! ## Lines -/

theorem split_ne (c : Char) (s : Str) : split c s ≠ [] := by
  induction s with
  | nil => simp [split]
  | cons x xs ih =>
    unfold split
    split
    · simp
    · split <;> simp

theorem split_spec (c : Char) (s : Str) : (∀ l ∈ split c s, c ∉ l) ∧ s = [c].intercalate (split c s) := by
  induction s with
  | nil => simp [split, List.intercalate]
  | cons x xs ih =>
    obtain ⟨h1, h2⟩ := ih
    unfold split
    cases hs : split c xs with
    | nil => exact absurd hs (split_ne c xs)
    | cons l ls =>
      rw [hs] at h1 h2
      split
      · rename_i hx
        subst hx
        refine ⟨?_, ?_⟩
        · intro l' hl'
          rcases List.mem_cons.mp hl' with rfl | hl'
          · simp
          · exact h1 l' hl'
        · conv => lhs; rw [h2]
          simp [List.intercalate, List.intersperse]
      · rename_i hx
        refine ⟨?_, ?_⟩
        · intro l' hl'
          rcases List.mem_cons.mp hl' with rfl | hl'
          · intro hm
            rcases List.mem_cons.mp hm with rfl | hm
            · exact hx rfl
            · exact h1 l (List.mem_cons_self ..) hm
          · exact h1 l' (List.mem_cons_of_mem _ hl')
        · conv => lhs; rw [h2]
          cases ls <;> simp [List.intercalate, List.intersperse]

theorem isLines_split (s : Str) : IsLines s (split '\n' s) := ⟨split_ne _ _, (split_spec _ _).1, (split_spec _ _).2⟩

theorem regexes_lines {o : Option Val} (h : ∀ v, o = some v → ∃ s, v = .str s) : Regexes o ((o.map lines).getD [] |>.filter (fun l => !l.isEmpty)) := by
  cases o with
  | none => exact .notGiven
  | some v =>
    obtain ⟨s, rfl⟩ := h v rfl
    have := Regexes.text s _ (isLines_split s)
    have e : (fun l : Str => !l.isEmpty) = fun l => decide (l ≠ []) := by
      funext l; cases l <;> simp
    show Regexes _ ((split '\n' s).filter _)
    rw [e]; exact this

/-! ## Paths -/

theorem pathOption_pathTail (path : Str) : PathOption path (pathTail path).1 (pathTail path).2 := by
  obtain ⟨h1, h2⟩ := split_spec ' ' path
  have h0 := split_ne ' ' path
  unfold pathTail
  cases hr : (split ' ' path).reverse with
  | nil => exact absurd (List.reverse_eq_nil_iff.mp hr) h0
  | cons t ps =>
    have e : split ' ' path = (t :: ps).reverse := by rw [← hr, List.reverse_reverse]
    cases ps with
    | nil =>
      have : path = t := by rw [h2, e]; simp [List.intercalate]
      subst this
      exact .plain _ (h1 _ (by rw [e]; simp))
    | cons p ps =>
      have e2 : path = [' '].intercalate ((p :: ps).reverse) ++ ' ' :: t := by
        conv => lhs; rw [h2, e]
        have key : ∀ (l : List Str), l ≠ [] → [' '].intercalate (l ++ [t]) = [' '].intercalate l ++ ' ' :: t := by
          intro l
          induction l with
          | nil => intro h; exact absurd rfl h
          | cons a l ih =>
            intro _
            cases l with
            | nil => simp [List.intercalate, List.intersperse]
            | cons b l =>
              have := ih (by simp)
              simp only [List.intercalate, List.cons_append, List.intersperse_cons_cons, List.flatten_cons] at this ⊢
              rw [this]; simp
        rw [show (t :: p :: ps).reverse = (p :: ps).reverse ++ [t] by simp]
        exact key _ (by simp)
      simp only
      have := PathOption.option ([' '].intercalate ((p :: ps).reverse)) t (h1 t (by rw [e]; simp))
      rw [← e2] at this
      exact this

theorem files_logCmds (env : Env) (jail : Str) : ∀ ls : List Str, ∃ fs, Files env.glob ls fs ∧
    ls.flatMap (fun path => let (p, tail) := pathTail path; (env.glob p).map (fun f => Cmd.set jail [arg "addlogpath".toList, arg f, arg tail]))
      = fs.map (fun f => .set jail [arg "addlogpath".toList, arg f.1, arg f.2]) := by
  intro ls
  induction ls with
  | nil => exact ⟨[], .nil, rfl⟩
  | cons l ls ih =>
    obtain ⟨fs, h1, h2⟩ := ih
    refine ⟨_, .cons l _ _ ls fs (pathOption_pathTail l) h1, ?_⟩
    rw [List.flatMap_cons, h2, List.map_append, List.map_map]
    rfl

/-! ## The stream of a filter -/

/-- `usedns` -/
def usednsCmds (jail : Str) (items : List (String × Option Val)) : List Cmd :=
  items.filterMap (fun kv => match kv.2 with | some v => if kv.1 = "usedns" then some (setCmd jail kv.1 (some v)) else none | none => none)

/-- `maxlines`, `prefregex` -/
def prioCmds (jail : Str) (items : List (String × Option Val)) : List Cmd :=
  items.filterMap (fun kv => match kv.2 with | some v => if kv.1 = "maxlines" ∨ kv.1 = "prefregex" then some (setCmd jail kv.1 (some v)) else none | none => none)

/-- Commands of an option that are appended. -/
def appended (env : Env) (jail : Str) (kv : String × Option Val) : Option (List Cmd) :=
  match kv.2 with
  | none => some []
  | some v =>
    if kv.1 = "failregex" ∨ kv.1 = "ignoreregex" then some (regexCmds jail kv.1 v)
    else if kv.1 = "usedns" ∨ kv.1 = "maxlines" ∨ kv.1 = "prefregex" then some []
    else if partOf kv.1.toList "datepattern".toList then some [setCmd jail kv.1 (some v)]
    else if kv.1 = "journalmatch" then journalCmds env jail (lines v)
    else some []

/-- All of them. -/
def restCmds (env : Env) (jail : Str) : List (String × Option Val) → Option (List Cmd)
  | [] => some []
  | kv :: items => (appended env jail kv).bind (fun a => (restCmds env jail items).map (a ++ ·))

theorem insertAt_length {α : Type} (x : α) : ∀ (a b : List α), insertAt a.length x (a ++ b) = a ++ x :: b := by
  intro a
  induction a with
  | nil => intro b; rfl
  | cons y a ih => intro b; show y :: insertAt a.length x (a ++ b) = _; rw [ih]; rfl

theorem usednsCmds_nil {jail : Str} {items : List (String × Option Val)} (h : "usedns" ∉ items.map Prod.fst) : usednsCmds jail items = [] := by
  unfold usednsCmds
  rw [List.filterMap_eq_nil_iff]
  intro kv hkv
  have : kv.1 ≠ "usedns" := fun e => h (e ▸ List.mem_map_of_mem hkv)
  cases kv.2 <;> simp [this]

theorem fillStream_eq (env : Env) (jail : Str) : ∀ (items : List (String × Option Val)) (pre s : List Cmd), (items.map Prod.fst).Nodup →
    fillStream env jail items pre.length (pre ++ s) = (restCmds env jail items).map (fun r => usednsCmds jail items ++ pre ++ prioCmds jail items ++ s ++ r) := by
  intro items
  induction items with
  | nil => intro pre s _; simp [fillStream, restCmds, usednsCmds, prioCmds]
  | cons kv items ih =>
    intro pre s hn
    obtain ⟨k, v⟩ := kv
    rw [List.map_cons, List.nodup_cons] at hn
    obtain ⟨hn1, hn2⟩ := hn
    have fin : ∀ (a : List Cmd) (b : Option (List Cmd)) (f g : List Cmd → List Cmd), (∀ r, f r = g (a ++ r)) → b.map f = (b.map (a ++ ·)).map g := by
      intro a b f g h
      cases b with
      | none => rfl
      | some r => simp [h]
    cases v with
    | none =>
      rw [fillStream, ih pre s hn2, restCmds]
      show _ = ((restCmds env jail items).map ([] ++ ·)).map _
      exact fin [] _ _ _ (fun r => rfl)
    | some v =>
      rw [restCmds]
      by_cases h1 : k = "failregex" ∨ k = "ignoreregex"
      · have ha : appended env jail (k, some v) = some (regexCmds jail k v) := if_pos h1
        have hu : usednsCmds jail ((k, some v) :: items) = usednsCmds jail items := by rcases h1 with rfl | rfl <;> rfl
        have hp : prioCmds jail ((k, some v) :: items) = prioCmds jail items := by rcases h1 with rfl | rfl <;> rfl
        rw [fillStream, if_pos h1, ha, hu, hp, List.append_assoc, ih pre _ hn2]
        exact fin _ _ _ _ (fun r => by simp)
      · by_cases h2 : k = "usedns" ∨ k = "maxlines" ∨ k = "prefregex"
        · have ha : appended env jail (k, some v) = some [] := by
            show (if k = "failregex" ∨ k = "ignoreregex" then _ else if _ then _ else _) = _
            rw [if_neg h1, if_pos h2]
          rw [fillStream, if_neg h1, if_pos h2, ha]
          rcases h2 with rfl | h2
          · have hu : usednsCmds jail (("usedns", some v) :: items) = [setCmd jail "usedns" (some v)] := by
              have e : usednsCmds jail (("usedns", some v) :: items) = setCmd jail "usedns" (some v) :: usednsCmds jail items := rfl
              rw [e, usednsCmds_nil hn1]
            have hp : prioCmds jail (("usedns", some v) :: items) = prioCmds jail items := rfl
            rw [if_pos rfl, hu, hp]
            have := ih (setCmd jail "usedns" (some v) :: pre) s hn2
            rw [usednsCmds_nil hn1] at this
            refine Eq.trans this ?_
            exact fin [] _ _ _ (fun r => by simp)
          · have hk : ¬k = "usedns" := by rcases h2 with rfl | rfl <;> decide
            have hu : usednsCmds jail ((k, some v) :: items) = usednsCmds jail items := by rcases h2 with rfl | rfl <;> rfl
            have hp : prioCmds jail ((k, some v) :: items) = setCmd jail k (some v) :: prioCmds jail items := by rcases h2 with rfl | rfl <;> rfl
            rw [if_neg hk, insertAt_length, hu, hp]
            have := ih (pre ++ [setCmd jail k (some v)]) s hn2
            rw [List.length_append, List.append_assoc] at this
            refine Eq.trans this ?_
            exact fin [] _ _ _ (fun r => by simp)
        · have hu : usednsCmds jail ((k, some v) :: items) = usednsCmds jail items := by
            have : ¬k = "usedns" := fun e => h2 (.inl e)
            simp [usednsCmds, this]
          have hp : prioCmds jail ((k, some v) :: items) = prioCmds jail items := by
            have h3 : ¬k = "maxlines" := fun e => h2 (.inr (.inl e))
            have h4 : ¬k = "prefregex" := fun e => h2 (.inr (.inr e))
            simp [prioCmds, h3, h4]
          have ha : appended env jail (k, some v) = if partOf k.toList "datepattern".toList then some [setCmd jail k (some v)]
              else if k = "journalmatch" then journalCmds env jail (lines v) else some [] := by
            show (if k = "failregex" ∨ k = "ignoreregex" then _ else if _ then _ else _) = _
            rw [if_neg h1, if_neg h2]
          rw [fillStream, if_neg h1, if_neg h2, ha, hu, hp]
          split
          · rw [List.append_assoc, ih pre _ hn2]
            exact fin _ _ _ _ (fun r => by simp)
          · split
            · cases hj : journalCmds env jail (lines v) with
              | none => rfl
              | some cmds =>
                simp only
                rw [List.append_assoc, ih pre _ hn2]
                exact fin _ _ _ _ (fun r => by simp)
            · rw [ih pre s hn2]
              exact fin [] _ _ _ (fun r => by simp)

theorem fillStream_zero (env : Env) (jail : Str) (o : Opts) (s : List Cmd) :
    fillStream env jail o.items 0 s = (restCmds env jail o.items).map (fun r => usednsCmds jail o.items ++ prioCmds jail o.items ++ s ++ r) := by
  have := fillStream_eq env jail o.items [] s o.nodup
  simpa using this

end Verif.Reader
