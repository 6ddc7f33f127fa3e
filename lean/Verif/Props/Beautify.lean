import Verif.Spec.Beautify

set_option linter.unusedSimpArgs false

/-!
# C106: what the client shows is what the server answered
-/

namespace Verif.Beautify

/-! ## Joining and splitting -/

theorem joinT_eq (sep : Text) (l : List Text) : joinT sep l = List.intercalate sep l := by
  induction l using joinT.induct with
  | case1 => rfl
  | case2 a => simp [joinT, List.intercalate]
  | case3 a l hl ih =>
    cases l with
    | nil => exact absurd rfl hl
    | cons b l => rw [joinT, ih]; simp [List.intercalate, List.intersperse]; simp

theorem split_ne (c : Char) (t : Text) : split c t ≠ [] := by
  cases t with
  | nil => simp [split]
  | cons x t =>
    rw [split]
    split
    · simp
    · split <;> simp

theorem split_plain {c : Char} {t : Text} (h : c ∉ t) : split c t = [t] := by
  induction t with
  | nil => rfl
  | cons x t ih =>
    simp only [List.mem_cons, not_or] at h
    rw [split, if_neg (fun e => h.1 e.symm), ih h.2]

theorem split_append {c : Char} {t : Text} (h : c ∉ t) (r : Text) : split c (t ++ c :: r) = t :: split c r := by
  induction t with
  | nil => simp [split]
  | cons x t ih =>
    simp only [List.mem_cons, not_or] at h
    rw [List.cons_append, split, if_neg (fun e => h.1 e.symm), ih h.2]

theorem split_join {c : Char} {l : List Text} (hl : l ≠ []) (h : ∀ t ∈ l, c ∉ t) : split c (joinT [c] l) = l := by
  induction l with
  | nil => exact absurd rfl hl
  | cons a l ih =>
    cases l with
    | nil => exact split_plain (h a (by simp))
    | cons b l =>
      rw [joinT, List.append_assoc]
      · show split c (a ++ c :: joinT [c] (b :: l)) = _
        rw [split_append (h a (by simp)), ih (by simp) (fun t ht => h t (by simp [ht]))]
      · simp

theorem allSome_map {α β} (f : α → β) (g : β → Option α) (h : ∀ a, g (f a) = some a) (l : List α) : allSome ((l.map f).map g) = some l := by
  induction l with
  | nil => rfl
  | cons a l ih => simp only [List.map_cons, h, allSome, ih, Option.map_some]

theorem asStr_str (t : Text) : asStr (.str t) = some t := rfl

/-! ## Which part is responsible -/

theorem not_own {c : Text} (h : c ∉ ownWords) (e : Env) (j : Text) (rest : List Text) (r : R) :
    beautify e (c :: j :: rest) r = beautify2 e c j rest r ∧ beautify e [c] r = .raw r := by
  simp only [ownWords, List.map_cons, List.map_nil, List.mem_cons, not_or] at h
  obtain ⟨h1, h2, h3, h4, h5, h6, h7, h8, h9, h10, _⟩ := h
  unfold beautify
  simp only [if_neg h1, if_neg h2, if_neg h3, if_neg h4, if_neg h5, if_neg h6, if_neg h7, if_neg h8, h9, h10, or_self, if_false, and_self]

theorem not_server {j : Text} (h : j ∉ serverWords) (e : Env) (c o : Text) (more : List Text) (r : R) :
    beautify2 e c j (o :: more) r = beautify3 e c j o more r ∧ beautify2 e c j [] r = .raw r := by
  simp only [serverWords, List.map_cons, List.map_nil, List.mem_cons, not_or] at h
  obtain ⟨h1, h2, h3, h4, h5, _⟩ := h
  unfold beautify2
  simp only [if_neg h1, if_neg h2, if_neg h3, if_neg h4, if_neg h5, and_self]

theorem jail_command {c j : Text} (hc : c ∉ ownWords) (hj : j ∉ serverWords) (e : Env) (o : Text) (more : List Text) (r : R) :
    beautify e (c :: j :: o :: more) r = beautify3 e c j o more r := by
  rw [(not_own hc e j (o :: more) r).1, (not_server hj e c o more r).1]

/-- Answers to all other commands are shown as they are -/
theorem C106_others {c : Text} (hc : c ∉ ownWords) (e : Env) (r : R) :
    beautify e [c] r = .raw r ∧ ∀ j, j ∉ serverWords → beautify e [c, j] r = .raw r ∧
      ∀ o more, o ∉ jailWords → ¬ (o = "banip".toList ∧ c = "get".toList) → beautify e (c :: j :: o :: more) r = .raw r := by
  refine ⟨(not_own hc e [] [] r).2, fun j hj => ⟨?_, fun o more ho hb => ?_⟩⟩
  · rw [(not_own hc e j [] r).1, (not_server hj e c [] [] r).2]
  · rw [jail_command hc hj]
    simp only [jailWords, List.map_cons, List.map_nil, List.mem_cons, not_or] at ho
    obtain ⟨h1, h2, h3, h4, h5, h6, h7, h8, h9, h10, h11, h12, h13, h14, h15, h16, h17, h18, h19, h20, _⟩ := ho
    unfold beautify3
    rw [if_neg (by simp only [h1, h2, h3, or_self, not_false_iff]), if_neg h4, if_neg (by simp only [h5, h6, h7, or_self, not_false_iff]), if_neg h8,
      if_neg (by simp only [h9, h10, h11, or_self, not_false_iff]), if_neg (by simp only [h12, h13, h14, h15, h16, h17, or_self, not_false_iff]), if_neg h18, if_neg h19,
      if_neg h20, if_neg hb]

/-! ## Lists -/

theorem listing_some (a b : Text) (f) {l : List Text} (h : l ≠ []) : listing a b f (texts l) = some (joinT ['\n'] (b :: f l)) := by
  unfold listing texts
  have hl : len (.list (l.map .str)) = some l.length := by simp [len, items, seq]
  rw [hl]
  cases l with
  | nil => exact absurd rfl h
  | cons x l =>
    show (Option.bind _ _) = _
    simp only [seq, Option.bind_some]
    rw [allSome_map _ _ asStr_str]; rfl

theorem listing_none (a b : Text) (f) : listing a b f (texts []) = some a := rfl

/-- A list with signs; numbers count from `k` -/
theorem tree_eq (l : List Text) (k n : Nat) (h : n = k + l.length) : tree l = (l.zipIdx k).map (fun p => sign p.2 n ++ p.1) := by
  induction l generalizing k with
  | nil => rfl
  | cons a l ih =>
    cases l with
    | nil =>
      have : k + 1 = n := by simp at h; omega
      simp [tree, sign, this]
    | cons b l =>
      have : ¬ k + 1 = n := by simp at h; omega
      rw [tree, ih (k + 1) (by simp at *; omega), List.zipIdx_cons, List.map_cons]
      · simp [sign, this]
      · simp

theorem numbered_eq (l : List Text) (k n : Nat) (h : n = k + l.length) :
    numbered k l = (l.zipIdx k).map (fun p => sign p.2 n ++ '[' :: (toString p.2).toList ++ "]: ".toList ++ p.1) := by
  have hd : ∀ k : Nat, (toString k).toList = Nat.toDigits 10 k := by intro k; simp [toString, Nat.repr]
  induction l generalizing k with
  | nil => rfl
  | cons a l ih =>
    cases l with
    | nil =>
      have : k + 1 = n := by simp at h; omega
      simp [numbered, sign, this, hd]
    | cons b l =>
      have : ¬ k + 1 = n := by simp at h; omega
      rw [numbered, ih (k + 1) (by simp at *; omega), List.zipIdx_cons, List.map_cons]
      · simp [sign, this, hd]
      · simp

/-- Log files and ignored addresses: one in a line, all of them, in order -/
theorem C106_list {c j o : Text} (hc : c ∉ ownWords) (hj : j ∉ serverWords) (e : Env) (more : List Text) {l : List Text} (hl : l ≠ []) :
    (o ∈ paths → beautify e (c :: j :: o :: more) (texts l) =
      .text (List.intercalate ['\n'] ("Current monitored log file(s):".toList :: l.zipIdx.map (fun p => sign p.2 l.length ++ p.1)))) ∧
    (o ∈ ignored → beautify e (c :: j :: o :: more) (texts l) =
      .text (List.intercalate ['\n'] ("These IP addresses/networks are ignored:".toList :: l.zipIdx.map (fun p => sign p.2 l.length ++ p.1)))) := by
  refine ⟨fun ho => ?_, fun ho => ?_⟩
  · rw [jail_command hc hj]
    simp only [paths, List.map_cons, List.map_nil, List.mem_cons, List.not_mem_nil, or_false] at ho
    unfold beautify3
    rw [if_pos ho, listing_some _ _ _ hl, tree_eq l 0 l.length (by simp), joinT_eq]; rfl
  · rw [jail_command hc hj]
    simp only [ignored, List.map_cons, List.map_nil, List.mem_cons, List.not_mem_nil, or_false] at ho
    unfold beautify3
    rw [if_neg (by rcases ho with rfl | rfl | rfl <;> decide), if_neg (by rcases ho with rfl | rfl | rfl <;> decide),
      if_neg (by rcases ho with rfl | rfl | rfl <;> decide), if_neg (by rcases ho with rfl | rfl | rfl <;> decide),
      if_pos ho, listing_some _ _ _ hl, tree_eq l 0 l.length (by simp), joinT_eq]; rfl

/-- Regular expressions: each with its number, the number by which it can be deleted -/
theorem C106_regexes {c j o : Text} (hc : c ∉ ownWords) (hj : j ∉ serverWords) (e : Env) (more : List Text) {l : List Text} (hl : l ≠ []) (ho : o ∈ regexes) :
    beautify e (c :: j :: o :: more) (texts l) = .text (List.intercalate ['\n'] ("The following regular expression are defined:".toList ::
      l.zipIdx.map (fun p => sign p.2 l.length ++ '[' :: (toString p.2).toList ++ "]: ".toList ++ p.1))) := by
  rw [jail_command hc hj]
  simp only [regexes, List.map_cons, List.map_nil, List.mem_cons, List.not_mem_nil, or_false] at ho
  unfold beautify3
  rw [if_neg (by rcases ho with rfl | rfl | rfl | rfl | rfl | rfl <;> decide), if_neg (by rcases ho with rfl | rfl | rfl | rfl | rfl | rfl <;> decide),
    if_neg (by rcases ho with rfl | rfl | rfl | rfl | rfl | rfl <;> decide), if_neg (by rcases ho with rfl | rfl | rfl | rfl | rfl | rfl <;> decide),
    if_neg (by rcases ho with rfl | rfl | rfl | rfl | rfl | rfl <;> decide),
    if_pos ho, listing_some _ _ _ hl, numbered_eq l 0 l.length (by simp), joinT_eq]; rfl

/-- Nothing: a message says so -/
theorem C106_nothing {c j o : Text} (hc : c ∉ ownWords) (hj : j ∉ serverWords) (e : Env) (more : List Text) :
    (o ∈ paths → beautify e (c :: j :: o :: more) (texts []) = .text "No file is currently monitored".toList) ∧
    (o ∈ ignored → beautify e (c :: j :: o :: more) (texts []) = .text "No IP address/network is ignored".toList) ∧
    (o ∈ regexes → beautify e (c :: j :: o :: more) (texts []) = .text "No regular expression is defined".toList) := by
  rw [jail_command hc hj]
  unfold beautify3
  refine ⟨fun ho => ?_, fun ho => ?_, fun ho => ?_⟩
  · simp only [paths, List.map_cons, List.map_nil, List.mem_cons, List.not_mem_nil, or_false] at ho
    rw [if_pos ho]; rfl
  · simp only [ignored, List.map_cons, List.map_nil, List.mem_cons, List.not_mem_nil, or_false] at ho
    rw [if_neg (by rcases ho with rfl | rfl | rfl <;> decide), if_neg (by rcases ho with rfl | rfl | rfl <;> decide),
      if_neg (by rcases ho with rfl | rfl | rfl <;> decide), if_neg (by rcases ho with rfl | rfl | rfl <;> decide), if_pos ho]; rfl
  · simp only [regexes, List.map_cons, List.map_nil, List.mem_cons, List.not_mem_nil, or_false] at ho
    rw [if_neg (by rcases ho with rfl | rfl | rfl | rfl | rfl | rfl <;> decide), if_neg (by rcases ho with rfl | rfl | rfl | rfl | rfl | rfl <;> decide),
      if_neg (by rcases ho with rfl | rfl | rfl | rfl | rfl | rfl <;> decide), if_neg (by rcases ho with rfl | rfl | rfl | rfl | rfl | rfl <;> decide),
      if_neg (by rcases ho with rfl | rfl | rfl | rfl | rfl | rfl <;> decide), if_pos ho]; rfl

theorem zipIdx_drop {l : List Text} (n k : Nat) : ((l.zipIdx k).map (fun p => sign p.2 n ++ p.1)).map (List.drop 3) = l := by
  induction l generalizing k with
  | nil => rfl
  | cons a l ih =>
    rw [List.zipIdx_cons, List.map_cons, List.map_cons, ih]
    congr 1
    unfold sign
    split <;> rfl

theorem sign_line {n k : Nat} : '\n' ∉ sign k n := by
  unfold sign; split <;> decide

theorem mem_zip {l : List Text} {k : Nat} {p : Text × Nat} (h : p ∈ l.zipIdx k) : p.1 ∈ l := by
  obtain ⟨_, _, h⟩ := List.mem_zipIdx h
  rw [h]; exact List.getElem_mem _

/-- What was answered can be read from what is shown: lines after the first, without the sign -/
theorem C106_read {c j o : Text} (hc : c ∉ ownWords) (hj : j ∉ serverWords) (e : Env) (more : List Text) {l : List Text} (hl : l ≠ [])
    (hn : ∀ t ∈ l, '\n' ∉ t) (ho : o ∈ paths ∨ o ∈ ignored) :
    ∃ t, beautify e (c :: j :: o :: more) (texts l) = .text t ∧ ((split '\n' t).drop 1).map (List.drop 3) = l := by
  have key : ∀ head : Text, '\n' ∉ head →
      ((split '\n' (List.intercalate ['\n'] (head :: l.zipIdx.map (fun p => sign p.2 l.length ++ p.1)))).drop 1).map (List.drop 3) = l := by
    intro head hh
    rw [← joinT_eq, split_join (by simp)]
    · exact zipIdx_drop _ _
    · intro t ht
      rcases List.mem_cons.1 ht with rfl | ht
      · exact hh
      · obtain ⟨p, hp, rfl⟩ := List.mem_map.1 ht
        simp only [List.mem_append, not_or]
        exact ⟨sign_line, hn _ (mem_zip hp)⟩
  rcases ho with ho | ho
  · exact ⟨_, (C106_list hc hj e more hl).1 ho, key _ (by decide)⟩
  · exact ⟨_, (C106_list hc hj e more hl).2 ho, key _ (by decide)⟩

/-- Banned addresses can be read from what is shown: separated by a space, by lines or by the given character -/
theorem C106_banned {j : Text} (hj : j ∉ serverWords) (e : Env) {l : List Text} (hl : l ≠ []) :
    ((∀ t ∈ l, ' ' ∉ t) → ∃ t, beautify e ["get".toList, j, "banip".toList] (texts l) = .text t ∧ split ' ' t = l) ∧
    ((∀ t ∈ l, '\n' ∉ t) → ∃ t, beautify e ["get".toList, j, "banip".toList, "--with-time".toList] (texts l) = .text t ∧ split '\n' t = l) ∧
    (∀ c, (∀ t ∈ l, c ∉ t) → ∃ t, beautify e ["get".toList, j, "banip".toList, [c]] (texts l) = .text t ∧ split c t = l) := by
  have hg : "get".toList ∉ ownWords := by decide
  have hb : ∀ more r, beautify e ("get".toList :: j :: "banip".toList :: more) (.list r) =
      ofText (join (match more with
        | [] => [' ']
        | s :: _ => if s = "--with-time".toList then ['\n'] else s) (.list r)) := by
    intro more r
    rw [jail_command hg hj]
    rfl
  have hj' : ∀ sep, join sep (texts l) = some (joinT sep l) := by
    intro sep
    unfold join texts
    simp only [items, seq, Option.bind_some]
    rw [allSome_map _ _ asStr_str]; rfl
  refine ⟨fun h => ⟨_, ?_, split_join hl h⟩, fun h => ⟨_, ?_, split_join hl h⟩, fun c h => ⟨_, ?_, split_join hl h⟩⟩
  · rw [texts, hb]; simp only [ofText]; rw [← texts, hj']
  · rw [texts, hb]; simp only [ofText]; rw [← texts, if_pos trivial, hj']
  · rw [texts, hb]; simp only [ofText]; rw [← texts, if_neg (by simp), hj']

/-! ## Status -/

theorem value_r (e : Env) (v : SVal) : value e v.r = v.shown := by
  cases v with
  | text t => rfl
  | num n => simp [SVal.r, value, Env.show, SVal.shown, Int.repr]
  | list l =>
    simp only [SVal.r, texts, value, SVal.shown, List.map_map]
    rw [joinT_eq]
    congr 1
    induction l with
    | nil => rfl
    | cons a l ih => rw [List.map_cons, ih]; rfl

theorem sign_branch (k n : Nat) : sign k n = branch (decide (k + 1 = n)) ++ [' '] := by
  unfold sign branch
  by_cases h : k + 1 = n <;> simp [h]

theorem entries_eq (e : Env) (pref : Text) (l : List (Text × SVal)) (k n : Nat) (h : n = k + l.length) :
    entries e pref (l.map (fun p => .tup [.str p.1, p.2.r])) =
      some ((l.zipIdx k).map (fun p => pref ++ sign p.2 n ++ p.1.1 ++ ":\t".toList ++ p.1.2.shown)) := by
  induction l generalizing k with
  | nil => rfl
  | cons a l ih =>
    have hb : (l.map (fun p : Text × SVal => R.tup [.str p.1, p.2.r])).isEmpty = decide (k + 1 = n) := by
      cases l with
      | nil => simp at h; simp [h]
      | cons b l => simp at h; simp; omega
    rw [List.map_cons, entries, ih (k + 1) (by simp at h; omega)]
    simp only [entry, idx, seq, Option.bind_some, List.getElem?_cons_zero, List.getElem?_cons_succ, value_r, hb, List.zipIdx_cons, List.map_cons, sign_branch]
    simp [Env.show]

theorem jailStat_eq (e : Env) (pref : Text) (s : Status) (k n : Nat) (h : n = k + s.length) :
    jailStat e pref (s.map (fun g => .tup [.str g.1, .list (g.2.map (fun p => .tup [.str p.1, p.2.r]))])) =
      some ((s.zipIdx k).flatMap (groupLines pref n)) := by
  induction s generalizing k with
  | nil => rfl
  | cons a s ih =>
    have hb : (s.map (fun g : Text × List (Text × SVal) => R.tup [.str g.1, .list (g.2.map (fun p => .tup [.str p.1, p.2.r]))])).isEmpty = decide (k + 1 = n) := by
      cases s with
      | nil => simp at h; simp [h]
      | cons b l => simp at h; simp; omega
    rw [List.map_cons, jailStat, ih (k + 1) (by simp at h; omega)]
    simp only [idx, items, seq, Option.bind_some, List.getElem?_cons_zero, List.getElem?_cons_succ, hb]
    rw [entries_eq e _ a.2 0 a.2.length (by simp)]
    simp only [List.zipIdx_cons, List.flatMap_cons, groupLines, sign_branch]
    by_cases hk : k + 1 = n <;> simp [hk, Env.show]

/-- Status of a jail: every group and every value, each under its name -/
theorem C106_status_jail (e : Env) {j : Text} (hj : j ≠ "--all".toList) (more : List Text) (s : Status) :
    beautify e ("status".toList :: j :: more) s.r = .text (List.intercalate ['\n'] (("Status for the jail: ".toList ++ j) :: statusLines [] s)) := by
  show (if j ≠ "--all".toList then _ else _) = _
  rw [if_pos hj]
  simp only [Status.r, items, seq, Option.bind_some]
  rw [jailStat_eq e [] s 0 s.length (by simp), Option.map_some, ofText, joinT_eq]; rfl

theorem topEntries_eq (e : Env) (m : Bool) (l : List (Text × SVal)) (k n : Nat) (h : n = k + l.length) :
    topEntries e m (l.map (fun p => .tup [.str p.1, p.2.r])) =
      some ((l.zipIdx k).map (fun p => (if m then "|- ".toList else sign p.2 n) ++ p.1.1 ++ ":\t".toList ++ p.1.2.shown)) := by
  induction l generalizing k with
  | nil => rfl
  | cons a l ih =>
    have hb : (l.map (fun p : Text × SVal => R.tup [.str p.1, p.2.r])).isEmpty = decide (k + 1 = n) := by
      cases l with
      | nil => simp at h; simp [h]
      | cons b l => simp at h; simp; omega
    rw [List.map_cons, topEntries, ih (k + 1) (by simp at h; omega)]
    simp only [entry, idx, seq, Option.bind_some, List.getElem?_cons_zero, List.getElem?_cons_succ, value_r, hb, List.zipIdx_cons, List.map_cons, sign_branch]
    cases m <;> simp [Env.show, branch]

/-- Status of the server -/
theorem C106_status (e : Env) (l : List (Text × SVal)) :
    beautify e ["status".toList] (.list (l.map (fun p => .tup [.str p.1, p.2.r]))) =
      .text (List.intercalate ['\n'] ("Status".toList :: l.zipIdx.map (fun p => sign p.2 l.length ++ p.1.1 ++ ":\t".toList ++ p.1.2.shown))) := by
  show ofText ((statusAll e false _).map (joinT ['\n'])) = _
  unfold statusAll
  simp only [items, seq, Bool.false_eq_true, if_false]
  rw [topEntries_eq e false l 0 l.length (by simp)]
  simp only [Option.map_some, ofText, joinT_eq, Bool.false_eq_true, if_false]

theorem stat_r (e : Env) (pref : Text) (s : Status) : (items s.r).bind (jailStat e pref) = some (statusLines pref s) := by
  simp only [Status.r, items, seq, Option.bind_some]
  exact jailStat_eq e pref s 0 s.length (by simp)

theorem allJails_eq (e : Env) (d : List (Text × Status)) (k n : Nat) (h : n = k + d.length) :
    allJails e (d.map (fun p => (p.1, p.2.r))) = some ((d.zipIdx k).flatMap (fun p =>
      ("   ".toList ++ sign p.2 n ++ "Jail: ".toList ++ p.1.1) :: statusLines (if p.2 + 1 = n then "      ".toList else "   |  ".toList) p.1.2)) := by
  induction d generalizing k with
  | nil => rfl
  | cons a d ih =>
    have hb : (d.map (fun p : Text × Status => (p.1, p.2.r))).isEmpty = decide (k + 1 = n) := by
      cases d with
      | nil => simp at h; simp [h]
      | cons b l => simp at h; simp; omega
    rw [List.map_cons, allJails, ih (k + 1) (by simp at h; omega)]
    rw [hb, stat_r, List.zipIdx_cons, List.flatMap_cons]
    by_cases hk : k + 1 = n
    · simp only [hk, decide_true, if_true, sign_branch, List.append_assoc, List.cons_append]; rfl
    · simp only [hk, decide_false, if_false, Bool.false_eq_true, sign_branch, List.append_assoc, List.cons_append]; rfl

/-- Status of all jails: every jail under its name, with all its values -/
theorem C106_status_all (e : Env) (l : List (Text × SVal)) {d : List (Text × Status)} (hd : d ≠ []) (more : List Text) :
    beautify e ("status".toList :: "--all".toList :: more)
        (.list (l.map (fun p => .tup [.str p.1, p.2.r]) ++ [.dict (d.map (fun p => (p.1, p.2.r)))])) =
      .text (List.intercalate ['\n'] ("Status".toList :: (l.zipIdx.map (fun p => "|- ".toList ++ p.1.1 ++ ":\t".toList ++ p.1.2.shown) ++
        "`- Status for the jails:".toList :: d.zipIdx.flatMap (fun p => ("   ".toList ++ sign p.2 d.length ++ "Jail: ".toList ++ p.1.1) ::
          statusLines (if p.2 + 1 = d.length then "      ".toList else "   |  ".toList) p.1.2)))) := by
  show ofText ((statusAll e true _).map (joinT ['\n'])) = _
  unfold statusAll
  have ht : truthy (.dict (d.map (fun p => (p.1, p.2.r)))) = true := by
    cases d with
    | nil => exact absurd rfl hd
    | cons a d => rfl
  simp only [seq, List.getLast?_concat, List.dropLast_concat, if_true]
  rw [ht, topEntries_eq e true l 0 l.length (by simp)]
  simp only [if_true]
  rw [allJails_eq e d 0 d.length (by simp)]
  simp only [Option.map_some, ofText, joinT_eq]

/-! ## Statistics -/

theorem width_ge (m : Nat) (rows : List (List Text)) (i : Nat) : m ≤ width m rows i ∧ ∀ row ∈ rows, ((row[i]?).getD []).length ≤ width m rows i := by
  unfold width
  induction rows generalizing m with
  | nil => simp
  | cons r rows ih =>
    rw [List.foldl_cons]
    obtain ⟨h1, h2⟩ := ih (Nat.max m ((r[i]?).getD []).length)
    have hm : m ≤ Nat.max m ((r[i]?).getD []).length := Nat.le_max_left ..
    have hr : ((r[i]?).getD []).length ≤ Nat.max m ((r[i]?).getD []).length := Nat.le_max_right ..
    refine ⟨Nat.le_trans hm h1, fun row hrow => ?_⟩
    rcases List.mem_cons.1 hrow with rfl | hrow
    · exact Nat.le_trans hr h1
    · exact h2 row hrow

theorem padR_length {n : Nat} {t : Text} (h : t.length ≤ n) : (padR n t).length = n := by simp [padR]; omega
theorem padL_length {n : Nat} {t : Text} (h : t.length ≤ n) : (padL n t).length = n := by simp [padL]; omega

/-- What is behind a text of known length -/
theorem behind {A : Text} {n : Nat} (h : A.length = n) (x : Char) (r : Text) (k : Nat) (hk : k = n) : (A ++ x :: r)[k]? = some x := by
  subst hk; subst h; simp

theorem at_bars (c x1 a1 y1 x2 a2 y2 x3 a3 y3 : Char) {A B C D t : Text} {n0 n1 n2 n3 : Nat} (hA : A.length = n0) (hB : B.length = n1) (hC : C.length = n2)
    (hD : D.length = n3) (ht : t = c :: (A ++ [x1, a1, y1] ++ (B ++ [x2, a2, y2] ++ (C ++ [x3, a3, y3] ++ D)))) :
    t[n0 + 2]? = some a1 ∧ t[n0 + n1 + 5]? = some a2 ∧ t[n0 + n1 + n2 + 8]? = some a3 ∧ t.length = n0 + n1 + n2 + n3 + 10 := by
  subst hA; subst hB; subst hC; subst hD; subst ht
  refine ⟨?_, ?_, ?_, by simp; omega⟩
  · refine Eq.trans (congrArg (·[A.length + 2]?) ?_) (behind (A := c :: (A ++ [x1])) rfl a1 (y1 :: (B ++ [x2, a2, y2] ++ (C ++ [x3, a3, y3] ++ D))) _ (by simp))
    simp
  · refine Eq.trans (congrArg (·[A.length + B.length + 5]?) ?_) (behind (A := c :: (A ++ [x1, a1, y1] ++ B ++ [x2])) rfl a2 (y2 :: (C ++ [x3, a3, y3] ++ D)) _ (by simp; omega))
    simp
  · refine Eq.trans (congrArg (·[A.length + B.length + C.length + 8]?) ?_)
      (behind (A := c :: (A ++ [x1, a1, y1] ++ B ++ [x2, a2, y2] ++ C ++ [x3])) rfl a3 (y3 :: D) _ (by simp; omega))
    simp

theorem widths_min (rows : List (List Text)) (i : Nat) : (if i < 2 then 8 else 3) ≤ widths rows i := (width_ge _ rows i).1

/-- The bars of a line -/
def Bars (utf : Bool) (w : Nat → Nat) (t : Text) : Prop :=
  Bar utf t (w 0 + 2) ∧ Bar utf t (w 0 + w 1 + 5) ∧ Bar utf t (w 0 + w 1 + (3 + w 2 + w 3) + 8)

theorem bars_of {utf : Bool} {w : Nat → Nat} {c x1 a1 y1 x2 a2 y2 x3 a3 y3 : Char} {A B C D t : Text} {n : Nat} (hA : A.length = w 0) (hB : B.length = w 1)
    (hC : C.length = 3 + w 2 + w 3) (hD : D.length = n) (ht : t = c :: (A ++ [x1, a1, y1] ++ (B ++ [x2, a2, y2] ++ (C ++ [x3, a3, y3] ++ D))))
    (h1 : a1 ∈ (if utf then ['║', '╟', '╬', '╩', '╫'] else ['|', 'x', '-'])) (h2 : a2 ∈ (if utf then ['║', '╟', '╬', '╩', '╫'] else ['|', 'x', '-']))
    (h3 : a3 ∈ (if utf then ['║', '╟', '╬', '╩', '╫'] else ['|', 'x', '-'])) :
    Bars utf w t ∧ t.length = w 0 + w 1 + (3 + w 2 + w 3) + n + 10 := by
  obtain ⟨e1, e2, e3, e4⟩ := at_bars c x1 a1 y1 x2 a2 y2 x3 a3 y3 hA hB hC hD ht
  exact ⟨⟨⟨a1, e1, h1⟩, ⟨a2, e2, h2⟩, ⟨a3, e3, h3⟩⟩, e4⟩

theorem line6_bars (utf : Bool) (w : Nat → Nat) (row : Nat → Text) (h : ∀ i, i < 6 → (row i).length ≤ w i) :
    Bars utf w (line6 utf w row) ∧ (line6 utf w row).length = w 0 + w 1 + (3 + w 2 + w 3) + (3 + w 4 + w 5) + 10 := by
  refine bars_of (A := padR (w 0) (row 0)) (B := padR (w 1) (row 1)) (C := padL (w 2) (row 2) ++ [' ', glyph utf 6, ' '] ++ padL (w 3) (row 3))
    (D := padL (w 4) (row 4) ++ [' ', glyph utf 6, ' '] ++ padL (w 5) (row 5)) (padR_length (h 0 (by decide))) (padR_length (h 1 (by decide))) ?_ ?_ rfl ?_ ?_ ?_
  · simp only [List.length_append, padL_length (h 2 (by decide)), padL_length (h 3 (by decide)), List.length_cons, List.length_nil]; omega
  · simp only [List.length_append, padL_length (h 4 (by decide)), padL_length (h 5 (by decide)), List.length_cons, List.length_nil]; omega
  all_goals cases utf <;> decide

theorem rule_bars (utf : Bool) (x : Nat) (hx : x = 4 ∨ x = 5) (w : Nat → Nat) (m : Nat) :
    Bars utf w (rule utf x [w 0, w 1, 3 + w 2 + w 3, m]) ∧ (rule utf x [w 0, w 1, 3 + w 2 + w 3, m]).length = w 0 + w 1 + (3 + w 2 + w 3) + (m + 1) + 10 := by
  refine bars_of (c := glyph utf 1) (x1 := glyph utf 1) (a1 := glyph utf x) (y1 := glyph utf 1) (x2 := glyph utf 1) (a2 := glyph utf x) (y2 := glyph utf 1)
    (x3 := glyph utf 1) (a3 := glyph utf x) (y3 := glyph utf 1) (A := List.replicate (w 0) (glyph utf 1)) (B := List.replicate (w 1) (glyph utf 1)) (C := List.replicate (3 + w 2 + w 3) (glyph utf 1))
    (D := List.replicate m (glyph utf 1) ++ [glyph utf 1]) (by simp) (by simp) (by simp) (by simp) ?_ ?_ ?_ ?_
  · simp [rule, joinT]
  all_goals rcases hx with rfl | rfl <;> cases utf <;> decide

/-- A row that is not complete is never shown -/
theorem C106_row {e : Env} {n : Text} {r : R} {row : List Text} (h : rowOf e n r = some row) : row.length = 6 ∧ row.head? = some n := by
  unfold rowOf at h
  split at h
  · simp only at h
    split at h
    · rename_i k
      cases h
      exact ⟨k, rfl⟩
    · simp at h
  · simp at h

/-- The table of statistics: in every line the bars stand at the same places, whatever the names and numbers; lines of jails are equally long -/
theorem C106_table (utf : Bool) {rows : List (List Text)} {t : Text} (ht : t ∈ table utf rows) :
    Bars utf (widths rows) t ∧ (t.length = widths rows 0 + widths rows 1 + (3 + widths rows 2 + widths rows 3) + (3 + widths rows 4 + widths rows 5) + 10 ∨
      t.length = widths rows 0 + widths rows 1 + (3 + widths rows 2 + widths rows 3) + (3 + widths rows 4 + widths rows 5) + 11) := by
  have m0 := widths_min rows 0
  have m1 := widths_min rows 1
  have m2 := widths_min rows 2
  have m3 := widths_min rows 3
  have m4 := widths_min rows 4
  have m5 := widths_min rows 5
  simp only [Nat.reduceLT, if_true, if_false] at m0 m1 m2 m3 m4 m5
  simp only [table, List.cons_append, List.nil_append, List.mem_cons, List.mem_append, List.mem_map, List.not_mem_nil, or_false] at ht
  rcases ht with rfl | rfl | rfl | rfl | ⟨row, hrow, rfl⟩ | rfl
  · obtain ⟨a, b⟩ := bars_of (utf := utf) (w := widths rows) (c := ' ') (x1 := ' ') (a1 := glyph utf 0) (y1 := ' ') (x2 := ' ') (a2 := glyph utf 0) (y2 := ' ')
      (x3 := ' ') (a3 := glyph utf 0) (y3 := ' ') (A := padR (widths rows 0) []) (B := padR (widths rows 1) [])
      (C := padR (3 + widths rows 2 + widths rows 3) "Filter".toList) (D := padR (3 + widths rows 4 + widths rows 5) "Actions".toList) (n := 3 + widths rows 4 + widths rows 5)
      (padR_length (by simp)) (padR_length (by simp)) (padR_length (Nat.le_trans (show 6 ≤ 9 by decide) (by omega)))
      (padR_length (Nat.le_trans (show 7 ≤ 9 by decide) (by omega))) rfl (by cases utf <;> decide) (by cases utf <;> decide) (by cases utf <;> decide)
    exact ⟨a, .inl b⟩
  · obtain ⟨a, b⟩ := bars_of (utf := utf) (w := widths rows) (c := ' ') (x1 := ' ') (a1 := glyph utf 0) (y1 := ' ') (x2 := ' ') (a2 := glyph utf 2) (y2 := glyph utf 7)
      (x3 := glyph utf 7) (a3 := glyph utf 3) (y3 := glyph utf 7) (A := padR (widths rows 0) "Jail".toList) (B := padR (widths rows 1) "Backend".toList)
      (C := List.replicate (3 + widths rows 2 + widths rows 3) (glyph utf 7)) (D := List.replicate (3 + widths rows 4 + widths rows 5) (glyph utf 7) ++ [glyph utf 7])
      (n := 3 + widths rows 4 + widths rows 5 + 1) (padR_length (Nat.le_trans (show 4 ≤ 8 by decide) m0)) (padR_length (Nat.le_trans (show 7 ≤ 8 by decide) m1))
      (by simp) (by simp) rfl (by cases utf <;> decide) (by cases utf <;> decide) (by cases utf <;> decide)
    have e : ∀ X : Text, (' ' :: (joinT [' ', glyph utf 0, ' '] [padR (widths rows 0) "Jail".toList, padR (widths rows 1) "Backend".toList] ++
        [' ', glyph utf 2, glyph utf 7] ++ joinT [glyph utf 7, glyph utf 3, glyph utf 7] [List.replicate (3 + widths rows 2 + widths rows 3) (glyph utf 7),
          List.replicate (3 + widths rows 4 + widths rows 5) (glyph utf 7)] ++ [glyph utf 7])) =
        ' ' :: (padR (widths rows 0) "Jail".toList ++ [' ', glyph utf 0, ' '] ++ (padR (widths rows 1) "Backend".toList ++ [' ', glyph utf 2, glyph utf 7] ++
          (List.replicate (3 + widths rows 2 + widths rows 3) (glyph utf 7) ++ [glyph utf 7, glyph utf 3, glyph utf 7] ++
            (List.replicate (3 + widths rows 4 + widths rows 5) (glyph utf 7) ++ [glyph utf 7])))) := by
      intro _
      simp only [joinT, List.append_assoc]
    rw [e []]
    exact ⟨a, .inr (by rw [b]; omega)⟩
  · obtain ⟨a, b⟩ := line6_bars utf (widths rows) (fun i => if i = 2 ∨ i = 4 then "cur".toList else if i = 3 ∨ i = 5 then "tot".toList else []) (by
      intro i hi
      rcases i with _ | _ | _ | _ | _ | _ | i
      · exact Nat.zero_le _
      · exact Nat.zero_le _
      · exact m2
      · exact m3
      · exact m4
      · exact m5
      · omega)
    exact ⟨a, .inl b⟩
  · obtain ⟨a, b⟩ := rule_bars utf 4 (.inl rfl) (widths rows) (3 + widths rows 4 + widths rows 5)
    exact ⟨a, .inr (by rw [b]; omega)⟩
  · obtain ⟨a, b⟩ := line6_bars utf (widths rows) (fun i => (row[i]?).getD []) (fun i _ => (width_ge _ rows i).2 row hrow)
    exact ⟨a, .inl b⟩
  · obtain ⟨a, b⟩ := rule_bars utf 5 (.inr rfl) (widths rows) (3 + widths rows 4 + widths rows 5)
    exact ⟨a, .inr (by rw [b]; omega)⟩

/-- Places of the cells -/
def start (w : Nat → Nat) : Nat → Nat
  | 0 => 1
  | i + 1 => start w i + w i + 3

theorem cell_at {P X S : Text} {p n : Nat} (hp : P.length = p) (hn : X.length = n) : ((P ++ (X ++ S)).drop p).take n = X := by
  subst hp; subst hn; simp

/-- Each jail has its line, in order; each of its cells has the whole text, filled up to the width of the column: names to the right, numbers to the left -/
theorem C106_cells (utf : Bool) {rows : List (List Text)} {k : Nat} {row : List Text} (hk : rows[k]? = some row) :
    ∃ t, (table utf rows)[k + 4]? = some t ∧ ∀ i x, i < 6 → row[i]? = some x →
      ∃ fill, (t.drop (start (widths rows) i)).take (widths rows i) = (if i < 2 then x ++ List.replicate fill ' ' else List.replicate fill ' ' ++ x) ∧
        (x.length + fill = widths rows i) := by
  have hrow : row ∈ rows := List.mem_of_getElem? hk
  have hw : ∀ i, ((row[i]?).getD []).length ≤ widths rows i := fun i => (width_ge _ rows i).2 row hrow
  refine ⟨line6 utf (widths rows) (fun i => (row[i]?).getD []), ?_, ?_⟩
  · have hlt : k < rows.length := by
      rw [List.getElem?_eq_some_iff] at hk
      exact hk.1
    have : table utf rows = (table utf rows).take 4 ++ (rows.map (fun row => line6 utf (widths rows) (fun i => (row[i]?).getD [])) ++
        [rule utf 5 [widths rows 0, widths rows 1, 3 + widths rows 2 + widths rows 3, 3 + widths rows 4 + widths rows 5]]) := rfl
    rw [this, List.getElem?_append_right (by simp [table]), List.getElem?_append_left (by simp [table]; exact hlt)]
    simp [table, hk]
  · intro i x hi hx
    have key : ∀ P X S : Text, P.length = start (widths rows) i → X.length = widths rows i →
        line6 utf (widths rows) (fun i => (row[i]?).getD []) = P ++ (X ++ S) →
        ((line6 utf (widths rows) (fun i => (row[i]?).getD [])).drop (start (widths rows) i)).take (widths rows i) = X := by
      intro P X S h1 h2 h3
      rw [h3]; exact cell_at h1 h2
    generalize hW : widths rows = w at *
    have l0 := padR_length (hw 0)
    have l1 := padR_length (hw 1)
    have l2 := padL_length (hw 2)
    have l3 := padL_length (hw 3)
    have l4 := padL_length (hw 4)
    have l5 := padL_length (hw 5)
    have hx' : x = (row[i]?).getD [] := by rw [hx]; rfl
    have hlen := hw i
    rw [← hx'] at hlen
    refine ⟨w i - x.length, ?_, by omega⟩
    rcases i with _ | _ | _ | _ | _ | _ | i
    · rw [if_pos (by decide), key [' '] (padR (w 0) ((row[0]?).getD []))
        ([' ', glyph utf 0, ' '] ++ (padR (w 1) ((row[1]?).getD []) ++ [' ', glyph utf 0, ' '] ++ ((padL (w 2) ((row[2]?).getD []) ++ [' ', glyph utf 6, ' '] ++
          padL (w 3) ((row[3]?).getD [])) ++ [' ', glyph utf 0, ' '] ++ (padL (w 4) ((row[4]?).getD []) ++ [' ', glyph utf 6, ' '] ++ padL (w 5) ((row[5]?).getD [])))))
        rfl l0 (by simp [line6, joinT]), ← hx']; rfl
    · rw [if_pos (by decide), key (' ' :: (padR (w 0) ((row[0]?).getD []) ++ [' ', glyph utf 0, ' '])) (padR (w 1) ((row[1]?).getD []))
        ([' ', glyph utf 0, ' '] ++ ((padL (w 2) ((row[2]?).getD []) ++ [' ', glyph utf 6, ' '] ++ padL (w 3) ((row[3]?).getD [])) ++ [' ', glyph utf 0, ' '] ++
          (padL (w 4) ((row[4]?).getD []) ++ [' ', glyph utf 6, ' '] ++ padL (w 5) ((row[5]?).getD []))))
        (by simp [l0, start]; omega) l1 (by simp [line6, joinT]), ← hx']; rfl
    · rw [if_neg (by decide), key (' ' :: (padR (w 0) ((row[0]?).getD []) ++ [' ', glyph utf 0, ' '] ++ padR (w 1) ((row[1]?).getD []) ++ [' ', glyph utf 0, ' ']))
        (padL (w 2) ((row[2]?).getD [])) ([' ', glyph utf 6, ' '] ++ padL (w 3) ((row[3]?).getD []) ++ [' ', glyph utf 0, ' '] ++
          (padL (w 4) ((row[4]?).getD []) ++ [' ', glyph utf 6, ' '] ++ padL (w 5) ((row[5]?).getD [])))
        (by simp [l0, l1, start]; omega) l2 (by simp [line6, joinT]), ← hx']; rfl
    · rw [if_neg (by decide), key (' ' :: (padR (w 0) ((row[0]?).getD []) ++ [' ', glyph utf 0, ' '] ++ padR (w 1) ((row[1]?).getD []) ++ [' ', glyph utf 0, ' '] ++
          padL (w 2) ((row[2]?).getD []) ++ [' ', glyph utf 6, ' ']))
        (padL (w 3) ((row[3]?).getD [])) ([' ', glyph utf 0, ' '] ++ (padL (w 4) ((row[4]?).getD []) ++ [' ', glyph utf 6, ' '] ++ padL (w 5) ((row[5]?).getD [])))
        (by simp [l0, l1, l2, start]; omega) l3 (by simp [line6, joinT]), ← hx']; rfl
    · rw [if_neg (by decide), key (' ' :: (padR (w 0) ((row[0]?).getD []) ++ [' ', glyph utf 0, ' '] ++ padR (w 1) ((row[1]?).getD []) ++ [' ', glyph utf 0, ' '] ++
          padL (w 2) ((row[2]?).getD []) ++ [' ', glyph utf 6, ' '] ++ padL (w 3) ((row[3]?).getD []) ++ [' ', glyph utf 0, ' ']))
        (padL (w 4) ((row[4]?).getD [])) ([' ', glyph utf 6, ' '] ++ padL (w 5) ((row[5]?).getD []))
        (by simp [l0, l1, l2, l3, start]; omega) l4 (by simp [line6, joinT]), ← hx']; rfl
    · rw [if_neg (by decide), key (' ' :: (padR (w 0) ((row[0]?).getD []) ++ [' ', glyph utf 0, ' '] ++ padR (w 1) ((row[1]?).getD []) ++ [' ', glyph utf 0, ' '] ++
          padL (w 2) ((row[2]?).getD []) ++ [' ', glyph utf 6, ' '] ++ padL (w 3) ((row[3]?).getD []) ++ [' ', glyph utf 0, ' '] ++
          padL (w 4) ((row[4]?).getD []) ++ [' ', glyph utf 6, ' ']))
        (padL (w 5) ((row[5]?).getD [])) []
        (by simp [l0, l1, l2, l3, l4, start]; omega) l5 (by simp [line6, joinT]), ← hx']; rfl
    · omega

/-- Statistics of a jail: backend, current and total of the filter and of the actions -/
structure Stat where
  backend : Text
  failed : Nat
  failures : Nat
  banned : Nat
  bans : Nat

def Stat.r (s : Stat) : R := .tup [.str s.backend, .tup [.int s.failed, .int s.failures], .tup [.int s.banned, .int s.bans]]

def Stat.row (n : Text) (s : Stat) : List Text := [n, s.backend] ++ [s.failed, s.failures, s.banned, s.bans].map (fun k => (toString k).toList)

/-- Statistics: the table of all jails, or a message if there is none -/
theorem C106_stats (e : Env) {c : Text} (hc : c = "stats".toList ∨ c = "statistics".toList) (more : List Text) (d : List (Text × Stat)) :
    beautify e (c :: more) (.dict (d.map (fun p => (p.1, p.2.r)))) =
      .text (if d = [] then "No jails found.".toList else List.intercalate ['\n'] (table e.utf (d.map (fun p => p.2.row p.1)))) := by
  have h : beautify e (c :: more) (.dict (d.map (fun p => (p.1, p.2.r)))) = ofText ((stats e (.dict (d.map (fun p => (p.1, p.2.r))))).map (joinT ['\n'])) := by
    rcases hc with rfl | rfl <;> rfl
  rw [h]
  cases d with
  | nil => rfl
  | cons a d =>
    rw [if_neg (by simp)]
    have hr : ∀ n (s : Stat), rowOf e n s.r = some (s.row n) := by
      intro n s
      simp [rowOf, Stat.r, Stat.row, idx, seq, items, Env.show, Int.repr, toString]
    have ha : ∀ d : List (Text × Stat), allSome ((d.map (fun p => (p.1, p.2.r))).map (fun p => rowOf e p.1 p.2)) = some (d.map (fun p => p.2.row p.1)) := by
      intro d
      induction d with
      | nil => rfl
      | cons a d ih => simp only [List.map_cons, hr, allSome, ih, Option.map_some]
    have ht : truthy (.dict ((a :: d).map (fun p => (p.1, p.2.r)))) = true := rfl
    unfold stats
    rw [ht]
    simp only [if_true]
    rw [ha (a :: d)]
    simp only [Option.map_some, ofText, joinT_eq]

/-! ## Settings -/

/-- Settings of the server -/
theorem C106_server {c : Text} (hc : c ∉ ownWords) (e : Env) (more : List Text) (t : Text) (i : Int) :
    beautify e (c :: "syslogsocket".toList :: more) (.str t) = .text ("Current syslog socket is:\n`- ".toList ++ t) ∧
    beautify e (c :: "logtarget".toList :: more) (.str t) = .text ("Current logging target is:\n`- ".toList ++ t) ∧
    beautify e (c :: "loglevel".toList :: more) (.str t) = .text ("Current logging level is ".toList ++ e.repr (.str t)) ∧
    beautify e (c :: "loglevel".toList :: more) (.int i) = .text ("Current logging level is ".toList ++ e.repr (.str (e.level i))) ∧
    beautify e (c :: "dbfile".toList :: more) (.str t) = .text ("Current database file is:\n`- ".toList ++ t) ∧
    beautify e (c :: "dbfile".toList :: more) .none = .text "Database currently disabled".toList ∧
    beautify e (c :: "dbpurgeage".toList :: more) (.int i) = .text ("Current database purge age is:\n`- ".toList ++ (toString i).toList ++ "seconds".toList) ∧
    beautify e (c :: "dbpurgeage".toList :: more) .none = .text "Database currently disabled".toList := by
  have h := fun j r => (not_own hc e j more r).1
  simp only [h]
  exact ⟨rfl, rfl, rfl, rfl, rfl, rfl, rfl, rfl⟩

/-- Names of actions, properties and methods -/
theorem C106_actions {c j a : Text} (hc : c ∉ ownWords) (hj : j ∉ serverWords) (e : Env) (more : List Text) (l : List Text) :
    beautify e (c :: j :: "actions".toList :: more) (texts l) = .text (if l = [] then "No actions for jail ".toList ++ j else
      "The jail ".toList ++ j ++ " has the following actions:\n".toList ++ List.intercalate ", ".toList l) ∧
    beautify e (c :: j :: "actionproperties".toList :: a :: more) (texts l) = .text (if l = [] then "No properties for jail ".toList ++ j ++ " action ".toList ++ a else
      "The jail ".toList ++ j ++ " action ".toList ++ a ++ " has the following properties:\n".toList ++ List.intercalate ", ".toList l) ∧
    beautify e (c :: j :: "actionmethods".toList :: a :: more) (texts l) = .text (if l = [] then "No methods for jail ".toList ++ j ++ " action ".toList ++ a else
      "The jail ".toList ++ j ++ " action ".toList ++ a ++ " has the following methods:\n".toList ++ List.intercalate ", ".toList l) := by
  have hin : ∀ a b, inline a b (texts l) = some (if l = [] then a else b ++ '\n' :: List.intercalate ", ".toList l) := by
    intro a b
    cases l with
    | nil => rfl
    | cons x l =>
      have h1 : len (texts (x :: l)) = some (l.length + 1) := by simp [len, items, seq, texts]
      have h2 : join [',', ' '] (texts (x :: l)) = some (joinT [',', ' '] (x :: l)) := by
        unfold join texts
        simp only [items, seq, Option.bind_some]
        rw [allSome_map _ _ asStr_str]; rfl
      unfold inline
      rw [h1, h2, if_neg (by simp), joinT_eq]; rfl
  simp only [jail_command hc hj]
  refine ⟨?_, ?_, ?_⟩
  · show ofText (inline _ _ _) = _
    rw [hin]; by_cases h : l = [] <;> simp [h, ofText]
  · show ofText (inline _ _ _) = _
    rw [hin]; by_cases h : l = [] <;> simp [h, ofText]
  · show ofText (inline _ _ _) = _
    rw [hin]; by_cases h : l = [] <;> simp [h, ofText]

/-- Journal matches, encoding and date pattern -/
theorem C106_filter {c j : Text} (hc : c ∉ ownWords) (hj : j ∉ serverWords) (e : Env) (more : List Text) (l : List (List Text)) (t p : Text) :
    (∀ o, o ∈ ["journalmatch", "addjournalmatch", "deljournalmatch"].map String.toList →
      beautify e (c :: j :: o :: more) (.list (l.map texts)) = .text (if l = [] then "No journal match filter set".toList else
        "Current match filter:\n".toList ++ List.intercalate " + ".toList (l.map (List.intercalate [' '])))) ∧
    beautify e (c :: j :: "logencoding".toList :: more) (.str t) = .text ("Current log encoding is set to:\n".toList ++ t) ∧
    beautify e (c :: j :: "datepattern".toList :: more) .none = .text "Current date pattern set to: Not set/required".toList ∧
    beautify e (c :: j :: "datepattern".toList :: more) (.tup [.none, .str t]) = .text ("Current date pattern set to: ".toList ++ t) ∧
    beautify e (c :: j :: "datepattern".toList :: more) (.tup [.str p, .str t]) = .text ("Current date pattern set to: ".toList ++ p ++ " (".toList ++ t ++ ")".toList) := by
  simp only [jail_command hc hj]
  refine ⟨?_, rfl, rfl, rfl, rfl⟩
  intro o ho
  simp only [List.map_cons, List.map_nil, List.mem_cons, List.not_mem_nil, or_false] at ho
  unfold beautify3
  rw [if_neg (by rcases ho with rfl | rfl | rfl <;> decide), if_neg (by rcases ho with rfl | rfl | rfl <;> decide), if_pos ho]
  cases l with
  | nil => rfl
  | cons x l =>
    have h1 : len (.list ((x :: l).map texts)) = some (l.length + 1) := by simp [len, items, seq]
    have hj : ∀ x, join [' '] (texts x) = some (List.intercalate [' '] x) := by
      intro x
      unfold join texts
      simp only [items, seq, Option.bind_some]
      rw [allSome_map _ _ asStr_str, Option.map_some, joinT_eq]
    have h2 : ∀ l : List (List Text), allSome ((l.map texts).map (join [' '])) = some (l.map (List.intercalate [' '])) := by
      intro l
      induction l with
      | nil => rfl
      | cons a l ih => simp only [List.map_cons, hj, allSome, ih, Option.map_some]
    rw [h1, if_neg (by simp)]
    show ofText ((items _).bind _) = _
    simp only [items, seq, Option.bind_some]
    rw [h2 (x :: l)]
    simp only [Option.map_some, ofText, joinT_eq]

/-- Commands for the server and for starting and stopping -/
theorem C106_own (e : Env) (more : List Text) (j t : Text) (r : R) (l : List Text) :
    beautify e ("ping".toList :: more) (.str t) = .text ("Server replied: ".toList ++ t) ∧
    beautify e ("version".toList :: more) r = .raw r ∧
    beautify e ("start".toList :: more) r = .text "Jail started".toList ∧
    beautify e ["stop".toList] .none = .text "Shutdown successful".toList ∧
    beautify e ("stop".toList :: j :: more) .none = .text "Jail stopped".toList ∧
    (r ≠ .none → beautify e ("stop".toList :: more) r = .raw r) ∧
    beautify e ("add".toList :: more) (.str t) = .text ("Added jail ".toList ++ t) ∧
    beautify e ("flushlogs".toList :: more) (.str t) = .text ("logs: ".toList ++ t) ∧
    beautify e ("echo".toList :: more) (texts l) = .text (List.intercalate [' '] l) := by
  refine ⟨rfl, rfl, rfl, rfl, rfl, fun h => ?_, rfl, rfl, ?_⟩
  · cases r with
    | none => exact absurd rfl h
    | _ => rfl
  · show ofText (join [' '] (texts l)) = _
    unfold join texts
    simp only [items, seq, Option.bind_some]
    rw [allSome_map _ _ asStr_str, Option.map_some, joinT_eq]; rfl

/-- Status of all jails without any jail: as the status of the server -/
theorem C106_status_none (e : Env) (l : List (Text × SVal)) (more : List Text) :
    beautify e ("status".toList :: "--all".toList :: more) (.list (l.map (fun p => .tup [.str p.1, p.2.r]) ++ [.dict []])) =
      beautify e ["status".toList] (.list (l.map (fun p => .tup [.str p.1, p.2.r]))) := by
  rw [C106_status]
  show ofText ((statusAll e true _).map (joinT ['\n'])) = _
  unfold statusAll
  have ht : truthy (.dict []) = false := rfl
  simp only [seq, List.getLast?_concat, List.dropLast_concat, if_true]
  rw [ht, topEntries_eq e false l 0 l.length (by simp)]
  simp only [Option.map_some, ofText, joinT_eq, Bool.false_eq_true, if_false]

/-- Errors about jails name the jail, others are shown as they are -/
theorem C106_errors (n : Text) (r : R) :
    errorText (.unknownJail n) = .text ("Sorry but the jail '".toList ++ n ++ "' does not exist".toList) ∧
    errorText (.duplicateJail n) = .text ("The jail '".toList ++ n ++ "' already exists".toList) ∧ errorText (.other r) = .raw r ∧
    errorText .index = .text "Sorry but the command is invalid".toList := ⟨rfl, rfl, rfl, rfl⟩

/-! ## Examples -/

def env : Env := { str := fun _ => [], repr := fun r => match r with | .str t => ['\''] ++ t ++ ['\''] | _ => [], level := fun _ => "INFO".toList, utf := false }

/-- Text that is shown -/
def out : Shown → Option Text
  | .text t => some t
  | _ => none

def cmd (l : List String) : List Text := l.map String.toList

example : out (beautify env (cmd ["get", "sshd", "failregex"]) (texts (cmd ["a", "b c"]))) =
    some "The following regular expression are defined:\n|- [0]: a\n`- [1]: b c".toList := by decide +kernel

example : out (beautify env (cmd ["status", "sshd"]) (Status.r [("Filter".toList, [("Currently failed".toList, .num 2), ("File list".toList, .list (cmd ["/a", "/b"]))]),
    ("Actions".toList, [("Currently banned".toList, .num 0)])])) =
    some ("Status for the jail: sshd\n|- Filter\n|  |- Currently failed:\t2\n|  `- File list:\t/a /b\n`- Actions\n   `- Currently banned:\t0").toList := by decide +kernel

example : out (beautify env (cmd ["stats"]) (.dict [("sshd".toList, Stat.r ⟨"systemd".toList, 1, 22, 3, 4444⟩)])) = some
    ("          |          | Filter    | Actions   \n" ++
    " Jail     | Backend  |-----------x------------\n" ++
    "          |          | cur | tot | cur |  tot\n" ++
    "----------x----------x-----------x------------\n" ++
    " sshd     | systemd  |   1 |  22 |   3 | 4444\n" ++
    "----------------------------------------------").toList := by decide +kernel

example : out (beautify env (cmd ["get", "sshd", "banip"]) (texts (cmd ["1.2.3.4", "::1"]))) = some "1.2.3.4 ::1".toList := by decide +kernel

/-- Entries with line breaks: different lists may look the same -/
theorem C106_refuted_lines : ∃ l l' : List Text, l ≠ l' ∧
    out (beautify env (cmd ["get", "sshd", "logpath"]) (texts l)) = out (beautify env (cmd ["get", "sshd", "logpath"]) (texts l')) :=
  ⟨cmd ["a", "b", "c"], cmd ["a\n|- b", "c"], by decide, by decide +kernel⟩

/-- A jail with the name of a setting of the server: its answers are taken for that setting -/
theorem C106_refuted_name : out (beautify env (cmd ["get", "logtarget", "usedns"]) (.str "warn".toList)) = some "Current logging target is:\n`- warn".toList := by decide +kernel

end Verif.Beautify
