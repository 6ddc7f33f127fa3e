import Verif.Lemmas.Command
import Verif.Props.Tags

/-!
# C42 — `replaceTag`: the command of an action after interpolation of its parameters
-/

namespace Verif

open Tags Command Spec.Tags

/-- What a tag stands for in a command: its definition among the parameters of the action, or a fixed text. -/
def Spec.Tags.inCommand (h : Hosts) (d : Defs) (conditional : Text) (n : Text) : Option Text :=
  (meaning escapedTags d conditional (fun _ => none) n).or (addRepl h n)

namespace Command

theorem expands_clean {f : Text → Option Text} {v w : Text} (h : Expands f v w) : Clean w := by
  have key : ∃ ps, Good ps ∧ texts ps = w := by
    induction h with
    | nil => exact ⟨[], ⟨by simp, by simp⟩, rfl⟩
    | chr c hc _ ih =>
      obtain ⟨ps, hg, rfl⟩ := ih
      refine ⟨.chr c :: ps, ⟨?_, ?_⟩, by simp⟩
      · intro hm
        rcases List.mem_cons.1 hm with e | e
        · cases e; exact hc rfl
        · exact hg.1 e
      · intro n hn
        rcases List.mem_cons.1 hn with e | e
        · cases e
        · exact hg.2 n e
    | keep n hn hf _ ih =>
      obtain ⟨ps, hg, rfl⟩ := ih
      refine ⟨.tag n :: ps, ⟨?_, ?_⟩, by simp⟩
      · intro hm
        rcases List.mem_cons.1 hm with e | e
        · cases e
        · exact hg.1 e
      · intro m hm
        rcases List.mem_cons.1 hm with e | e
        · cases e; exact hn
        · exact hg.2 m e
    | repl n hn hf _ _ ih1 ih2 =>
      obtain ⟨ps, hg, rfl⟩ := ih1
      obtain ⟨qs, hq, rfl⟩ := ih2
      exact ⟨ps ++ qs, hg.append hq, by simp⟩
  obtain ⟨ps, hg, rfl⟩ := key
  exact clean_texts hg

/-- a complete expansion can be expanded further by more definitions -/
theorem expands_more {f F : Text → Option Text} (hF : ∀ n r, f n = some r → F n = some r) {v0 v : Text} (h : Expands f v0 v) : Refines F v v0 := by
  induction h with
  | nil => intro w hw; exact hw
  | chr c hc _ ih =>
    intro w hw
    obtain ⟨w', rfl, hw'⟩ := expands_chr hc hw
    exact .chr c hc (ih _ hw')
  | keep n hn hf _ ih =>
    intro w hw
    rcases expands_tag hn hw with ⟨h1, w', rfl, hw'⟩ | ⟨r, x, w', h1, rfl, h2, h3⟩
    · exact .keep n hn h1 (ih _ hw')
    · exact .repl n hn h1 h2 (ih _ h3)
  | repl n hn hf hx _ ih1 ih2 =>
    rename_i r x v0 v _
    intro w hw
    have hc := expands_clean hx
    have hw' : Expands F (texts (pieces x) ++ v) w := by rw [texts_pieces]; exact hw
    obtain ⟨w1, w2, rfl, h1, h2⟩ := expands_split (pieces x) (good_pieces hc) hw'
    rw [texts_pieces] at h1
    exact .repl n hn (hF n r hf) (ih1 _ h1) (ih2 _ h2)

theorem addRepl_clean (h : Hosts) (hfq : '<' ∉ h.fq) (hsh : '<' ∉ h.sh) (n x : Text) (hx : addRepl h n = some x) : '<' ∉ x := by
  unfold addRepl at hx
  split at hx
  · cases hx; decide
  · split at hx
    · cases hx; decide
    · split at hx
      · cases hx; exact hfq
      · split at hx
        · cases hx; exact hsh
        · cases hx

theorem clean_of_no_lt {x : Text} (hx : '<' ∉ x) : Clean x := by
  unfold Clean
  rw [pieces_of_no_lt hx]
  intro hm
  obtain ⟨d, hd, e⟩ := List.mem_map.1 hm
  cases e
  exact hx hd

end Command

variable {h : Hosts} {d : Defs} {conditional : Text}

/-- C42: a command with tags is replaced by its complete expansion by the parameters of the action, fixed tags included; for plain
texts there is no other error than the one of the interpolation of the parameters. Not covered (as in `C42_complete_partial`): composed
tags; and parameters with the names of escaped tags. -/
theorem C42_query_partial {fuel passes : Nat} {subInfo : Defs} (hfq : '<' ∉ h.fq) (hsh : '<' ∉ h.sh) (query : Text) (hq : Plain query)
    (hd : ∀ k v, d.get? k = some v → Plain v)
    (hesc : ∀ n, escapedTags n = true → d.get? n = none ∧ d.get? (n ++ '?' :: conditional) = none)
    (hs : substituteRecursiveTags d conditional escapedTags (fun _ => none) fuel passes = .ok subInfo) :
    ∃ v, replaceTag h query d conditional (fun _ => none) fuel passes = .ok v ∧ Expands (inCommand h d conditional) query v := by
  -- definitions after interpolation
  have hkeys := (C42_keys hs).1
  have hsub : ∀ n, substVal h subInfo conditional n = (meaning escapedTags subInfo conditional (fun _ => none) n).or (addRepl h n) := by
    intro n
    cases he : escapedTags n with
    | true =>
      have h1 := (get?_none_of_keys hkeys n).2 (hesc n he).1
      have h2 := (get?_none_of_keys hkeys (n ++ '?' :: conditional)).2 (hesc n he).2
      simp [substVal, meaning, he, h1, h2]
    | false =>
      unfold substVal meaning
      simp only [he, Bool.false_eq_true, if_false]
      by_cases hc : conditional = []
      · simp only [hc, ne_eq, not_true_eq_false, if_false, if_true, Option.none_or, Option.or_none]
        cases subInfo.get? n <;> rfl
      · simp only [ne_eq, hc, not_false_eq_true, if_true, if_false, Option.or_none]
        cases subInfo.get? (n ++ '?' :: conditional) with
        | some r => rfl
        | none => simp only [Option.none_or]; cases subInfo.get? n <;> rfl
  have hval : ∀ n r, meaning escapedTags subInfo conditional (fun _ => none) n = some r →
      ∃ r0, meaning escapedTags d conditional (fun _ => none) n = some r0 ∧ Expands (meaning escapedTags d conditional (fun _ => none)) r0 r := by
    intro n r hm
    have he : escapedTags n = false := by
      cases he : escapedTags n with
      | false => rfl
      | true => simp [meaning, he] at hm
    have key : ∀ k, subInfo.get? k = some r → escapedTags k = false → ∃ r0, d.get? k = some r0 ∧ Expands (meaning escapedTags d conditional (fun _ => none)) r0 r :=
      fun k hk hek => C42_expansion_partial hd (fun _ _ e => by cases e) hs k r hk hek
    have hqm : ∀ k r, subInfo.get? k = some r → escapedTags k = false := by
      intro k r hk
      cases hek : escapedTags k with
      | false => rfl
      | true => rw [(get?_none_of_keys hkeys k).2 (hesc k hek).1] at hk; cases hk
    unfold meaning at hm
    simp only [he, Bool.false_eq_true, if_false] at hm
    by_cases hc : conditional = []
    · simp only [hc, if_true, Option.none_or, Option.or_none] at hm
      obtain ⟨r0, h1, h2⟩ := key n hm (hqm n r hm)
      exact ⟨r0, by simp [meaning, he, hc, h1], h2⟩
    · simp only [hc, if_false, Option.or_none] at hm
      cases hg : subInfo.get? (n ++ '?' :: conditional) with
      | some x =>
        rw [hg, Option.some_or] at hm
        cases hm
        obtain ⟨r0, h1, h2⟩ := key _ hg (hqm _ r hg)
        exact ⟨r0, by simp [meaning, he, hc, h1], h2⟩
      | none =>
        rw [hg, Option.none_or] at hm
        have hn := (get?_none_of_keys hkeys _).1 hg
        obtain ⟨r0, h1, h2⟩ := key n hm (hqm n r hm)
        exact ⟨r0, by simp [meaning, he, hc, hn, h1], h2⟩
  have hmore : ∀ n r, meaning escapedTags d conditional (fun _ => none) n = some r → inCommand h d conditional n = some r := by
    intro n r hm; unfold inCommand; rw [hm]; rfl
  have hF : ∀ n r, substVal h subInfo conditional n = some r → Clean r ∧ ∃ r0, inCommand h d conditional n = some r0 ∧ Refines (inCommand h d conditional) r r0 := by
    intro n r hr
    rw [hsub] at hr
    cases hm : meaning escapedTags subInfo conditional (fun _ => none) n with
    | some x =>
      rw [hm, Option.some_or] at hr
      cases hr
      obtain ⟨r0, h1, h2⟩ := hval n r hm
      exact ⟨expands_clean h2, r0, hmore n r0 h1, expands_more hmore h2⟩
    | none =>
      rw [hm, Option.none_or] at hr
      have hn := (meaning_none_of_keys (ignore := escapedTags) (conditional := conditional) (addrepl := fun _ => none) hkeys n).1 hm
      exact ⟨clean_of_no_lt (addRepl_clean h hfq hsh n r hr), r, by simp [inCommand, hn, hr], fun w hw => hw⟩
  have hnone : ∀ n, substVal h subInfo conditional n = none → inCommand h d conditional n = none := by
    intro n hr
    rw [hsub, Option.or_eq_none_iff] at hr
    have hn := (meaning_none_of_keys (ignore := escapedTags) (conditional := conditional) (addrepl := fun _ => none) hkeys n).1 hr.1
    simp [inCommand, hn, hr.2]
  -- one replacement
  have hclean : Clean query := (clean_iff_plain query).2 hq
  have hstep : ∀ q, Clean q → Clean (sub (substVal h subInfo conditional) q) ∧
      Refines (inCommand h d conditional) (sub (substVal h subInfo conditional) q) q ∧
      pieces (sub (substVal h subInfo conditional) q) = subPieces (substVal h subInfo conditional) (pieces q) := by
    intro q hq
    have hg := good_subPieces (substVal h subInfo conditional) (fun n r hr => (hF n r hr).1) (pieces q) (good_pieces hq)
    rw [sub_eq]
    refine ⟨clean_texts hg, ?_, pieces_texts hg⟩
    have := expands_subPieces (f := inCommand h d conditional) (substVal h subInfo conditional) (pieces q) (good_pieces hq) hF
    rw [texts_pieces] at this
    exact this
  have hfix : ∀ q, Clean q → (∀ n, .tag n ∈ pieces q → substVal h subInfo conditional n = none) →
      sub (substVal h subInfo conditional) q = q ∧ Expands (inCommand h d conditional) q q := by
    intro q hq hn
    refine ⟨?_, ?_⟩
    · rw [sub_eq, subPieces_id _ _ hn, texts_pieces]
    · have := expands_self (f := inCommand h d conditional) (pieces q) (good_pieces hq) (fun n hm => hnone n (hn n hm))
      rwa [texts_pieces] at this
  -- tags after the first and the second replacement
  have htags : ∀ q, Clean q → ∀ n, .tag n ∈ pieces (sub (substVal h subInfo conditional) q) →
      meaning escapedTags subInfo conditional (fun _ => none) n = none := by
    intro q hq n hn
    rw [(hstep q hq).2.2] at hn
    unfold subPieces at hn
    rw [List.mem_flatMap] at hn
    obtain ⟨p, hp, hm⟩ := hn
    cases p with
    | chr c => simp at hm
    | tag m =>
      dsimp only at hm
      cases hv : substVal h subInfo conditional m with
      | none =>
        rw [hv] at hm
        simp at hm
        subst hm
        rw [hsub, Option.or_eq_none_iff] at hv
        exact hv.1
      | some r =>
        rw [hv] at hm
        dsimp only at hm
        rw [hsub] at hv
        cases hmm : meaning escapedTags subInfo conditional (fun _ => none) m with
        | some x =>
          rw [hmm, Option.some_or] at hv
          cases hv
          obtain ⟨r0, _, h2⟩ := hval m r hmm
          rw [meaning_none_of_keys hkeys]
          -- an expansion has no such tags
          exact expands_done h2 n hm
        | none =>
          rw [hmm, Option.none_or] at hv
          have := addRepl_clean h hfq hsh m r hv
          rw [pieces_of_no_lt this] at hm
          simp at hm
  have htags2 : ∀ q, Clean q → (∀ n, .tag n ∈ pieces q → meaning escapedTags subInfo conditional (fun _ => none) n = none) →
      ∀ n, .tag n ∈ pieces (sub (substVal h subInfo conditional) q) → substVal h subInfo conditional n = none := by
    intro q hq hqn n hn
    rw [(hstep q hq).2.2] at hn
    unfold subPieces at hn
    rw [List.mem_flatMap] at hn
    obtain ⟨p, hp, hm⟩ := hn
    cases p with
    | chr c => simp at hm
    | tag m =>
      dsimp only at hm
      cases hv : substVal h subInfo conditional m with
      | none =>
        rw [hv] at hm
        simp at hm
        subst hm
        exact hv
      | some r =>
        rw [hv] at hm
        dsimp only at hm
        rw [hsub, hqn m hp, Option.none_or] at hv
        have := addRepl_clean h hfq hsh m r hv
        rw [pieces_of_no_lt this] at hm
        simp at hm
  -- the loop
  have noTags : ∀ q : Text, '<' ∉ q → Expands (inCommand h d conditional) q q := by
    intro q hq
    have := expands_self (f := inCommand h d conditional) (pieces q) (good_pieces (clean_of_no_lt hq)) (by
      intro n hn; rw [pieces_of_no_lt hq] at hn; simp at hn)
    rwa [texts_pieces] at this
  unfold replaceTag
  by_cases hlt : '<' ∉ query
  · rw [if_pos hlt]
    exact ⟨query, rfl, noTags query hlt⟩
  · rw [if_neg hlt, hs]
    dsimp only
    generalize hv1 : sub (substVal h subInfo conditional) query = v1
    generalize hv2 : sub (substVal h subInfo conditional) v1 = v2
    have c1 := hstep query hclean
    rw [hv1] at c1
    have c2 := hstep v1 c1.1
    rw [hv2] at c2
    have t1 := htags query hclean
    rw [hv1] at t1
    have t2 := htags2 v1 c1.1 t1
    rw [hv2] at t2
    have f2 := hfix v2 c2.1 t2
    have full : Expands (inCommand h d conditional) query v2 := c1.2.1 _ (c2.2.1 _ f2.2)
    show ∃ v, replaceTagLoop h subInfo conditional (24 + 1 + 1) query = .ok v ∧ _
    rw [replaceTagLoop]
    try dsimp only
    rw [hv1]
    by_cases e1 : v1 = query ∨ '<' ∉ v1
    · rw [if_pos e1]
      refine ⟨v1, rfl, ?_⟩
      rcases e1 with e | e
      · have : v2 = v1 := by rw [← hv2, e, hv1, e]
        rw [← this]; exact full
      · exact c1.2.1 _ (noTags v1 e)
    · rw [if_neg e1, replaceTagLoop]
      try dsimp only
      rw [hv2]
      by_cases e2 : v2 = v1 ∨ '<' ∉ v2
      · rw [if_pos e2]; exact ⟨v2, rfl, full⟩
      · rw [if_neg e2, show (24 : Nat) = 23 + 1 from rfl, replaceTagLoop]
        try dsimp only
        rw [f2.1, if_pos (Or.inl rfl)]
        exact ⟨v2, rfl, full⟩

/-- The capital letters, digits and the two signs in names of captured values, and their small letters. -/
def Spec.Tags.capitals : List (Char × Char) :=
  "ABCDEFGHIJKLMNOPQRSTUVWXYZ0123456789_-".toList.zip "abcdefghijklmnopqrstuvwxyz0123456789_-".toList

theorem Command.fChar_iff (c : Char) : fChar c = true ↔ c ∈ capitals.map (·.1) := by
  have hfin : ∀ n < 128, fChar (Char.ofNat n) = true → Char.ofNat n ∈ capitals.map (·.1) := by decide +kernel
  constructor
  · intro h
    have hlt : c.toNat < 128 := by
      unfold fChar at h
      simp only [Bool.or_eq_true, Bool.and_eq_true, decide_eq_true_eq, beq_iff_eq] at h
      rcases h with ((⟨_, h⟩ | ⟨_, h⟩) | h) | h
      · have : c.toNat ≤ 'Z'.toNat := h
        have e : 'Z'.toNat = 90 := rfl
        omega
      · have : c.toNat ≤ '9'.toNat := h
        have e : '9'.toNat = 57 := rfl
        omega
      · subst h; decide
      · subst h; decide
    have := hfin c.toNat hlt
    rw [Char.ofNat_toNat] at this
    exact this h
  · have hall : ∀ d ∈ capitals.map (·.1), fChar d = true := by decide +kernel
    exact hall c

/-- C40: the values captured by a filter are those of the tags `<F-NAME>`, under the name in small letters, with two exceptions. -/
theorem C40_captured (n k : Text) : (fTag n).map mapTag2Opt = some k ↔
    ∃ m : List (Char × Char), m ≠ [] ∧ (∀ p ∈ m, p ∈ capitals) ∧ n = "F-".toList ++ m.map (·.1) ∧
      k = if m.map (·.2) = "id".toList then "fid".toList else if m.map (·.2) = "port".toList then "fport".toList else m.map (·.2) := by
  have hlow : ∀ p ∈ capitals, (if 'A' ≤ p.1 && p.1 ≤ 'Z' then Char.ofNat (p.1.toNat + 32) else p.1) = p.2 := by decide +kernel
  have hlower : ∀ m : List (Char × Char), (∀ p ∈ m, p ∈ capitals) → lower (m.map (·.1)) = m.map (·.2) := by
    intro m hm
    unfold lower
    rw [List.map_map]
    apply List.map_congr_left
    intro p hp
    exact hlow p (hm p hp)
  have hpairs : ∀ t : Text, (∀ c ∈ t, fChar c = true) → ∃ m : List (Char × Char), (∀ p ∈ m, p ∈ capitals) ∧ t = m.map (·.1) := by
    intro t
    induction t with
    | nil => intro _; exact ⟨[], by simp, rfl⟩
    | cons c t ih =>
      intro h
      obtain ⟨m, h1, h2⟩ := ih (fun d hd => h d (List.mem_cons_of_mem _ hd))
      have := (fChar_iff c).1 (h c (List.mem_cons_self ..))
      obtain ⟨p, hp, rfl⟩ := List.mem_map.1 this
      refine ⟨p :: m, ?_, by simp [h2]⟩
      intro q hq
      rcases List.mem_cons.1 hq with rfl | e
      · exact hp
      · exact h1 q e
  have hft : ∀ x : Text, fTag n = some x ↔ n = "F-".toList ++ x ∧ x ≠ [] ∧ ∀ c ∈ x, fChar c = true := by
    intro x
    unfold fTag
    split
    · rename_i m
      by_cases hm : m ≠ [] ∧ m.all fChar
      · rw [if_pos hm]
        have := List.all_eq_true.1 hm.2
        constructor
        · intro e; cases e; exact ⟨rfl, hm.1, this⟩
        · rintro ⟨e, _, _⟩
          have : m = x := by simpa using e
          rw [this]
      · rw [if_neg hm]
        constructor
        · intro e; cases e
        · rintro ⟨e, h1, h2⟩
          have : m = x := by simpa using e
          subst this
          exact absurd ⟨h1, List.all_eq_true.2 h2⟩ hm
    · rename_i hne
      constructor
      · intro e; cases e
      · rintro ⟨e, _, _⟩
        exact absurd e (hne x)
  constructor
  · intro h
    cases hf : fTag n with
    | none => rw [hf] at h; cases h
    | some x =>
      rw [hf] at h
      obtain ⟨h1, h2, h3⟩ := (hft x).1 hf
      obtain ⟨m, hm, rfl⟩ := hpairs x h3
      refine ⟨m, (by rintro rfl; exact h2 rfl), hm, h1, ?_⟩
      have hk : mapTag2Opt (m.map (·.1)) = k := by simpa using h
      rw [← hk]
      unfold mapTag2Opt
      rw [hlower m hm]
  · rintro ⟨m, hne, hm, hn, hk⟩
    have : fTag n = some (m.map (·.1)) := by
      rw [hft]
      refine ⟨hn, by simpa using hne, ?_⟩
      intro c hc
      obtain ⟨p, hp, rfl⟩ := List.mem_map.1 hc
      exact (fChar_iff _).2 (List.mem_map_of_mem (hm p hp))
    rw [this, Option.map_some, hk]
    unfold mapTag2Opt
    rw [hlower m hm]

example : (fTag "F-ID".toList).map mapTag2Opt = some "fid".toList := by decide +kernel
example : (fTag "F-USER".toList).map mapTag2Opt = some "user".toList := by decide +kernel
example : (fTag "F-id".toList).map mapTag2Opt = none := by decide +kernel

/-- C40: the fixed tags. -/
theorem C40_fixed (h : Hosts) (n x : Text) : addRepl h n = some x ↔
    (n, x) ∈ [("br".toList, "\n".toList), ("sp".toList, " ".toList), ("fq-hostname".toList, h.fq), ("sh-hostname".toList, h.sh)] := by
  simp only [List.mem_cons, Prod.mk.injEq, List.not_mem_nil, or_false]
  have n1 : "sp".toList ≠ "br".toList := by decide
  have n2 : "fq-hostname".toList ≠ "br".toList := by decide
  have n3 : "fq-hostname".toList ≠ "sp".toList := by decide
  have n4 : "sh-hostname".toList ≠ "br".toList := by decide
  have n5 : "sh-hostname".toList ≠ "sp".toList := by decide
  have n6 : "sh-hostname".toList ≠ "fq-hostname".toList := by decide
  have e1 : ['\n'] = "\n".toList := rfl
  have e2 : [' '] = " ".toList := rfl
  unfold addRepl
  rw [e1, e2]
  generalize "br".toList = a at *
  generalize "sp".toList = b at *
  generalize "fq-hostname".toList = c at *
  generalize "sh-hostname".toList = d at *
  generalize "\n".toList = u at *
  generalize " ".toList = v at *
  constructor
  · intro hx
    split at hx
    · cases hx; simp_all
    · split at hx
      · cases hx; simp_all
      · split at hx
        · cases hx; simp_all
        · split at hx
          · cases hx; simp_all
          · cases hx
  · rintro (⟨rfl, rfl⟩ | ⟨rfl, rfl⟩ | ⟨rfl, rfl⟩ | ⟨rfl, rfl⟩)
    · simp
    · simp [n1]
    · simp [n2, n3]
    · simp [n4, n5, n6]

namespace QueryExample

/-- the start command of an action with a chain: fixed tags and tags of the ticket in one command -/
def defs : Defs := Dict.empty
  |>.insert "chain".toList "f2b-<name>".toList
  |>.insert "name".toList "sshd".toList
  |>.insert "name?family=inet6".toList "sshd6".toList

def hosts : Hosts := ⟨"host.example".toList, "host".toList⟩

def out (c : Text) : Option String :=
  match replaceTag hosts "add <chain> <ip><br>on <fq-hostname> <nil>".toList defs c (fun _ => none) 100 100 with
  | .ok v => some (String.ofList v)
  | _ => none

example : out [] = some "add f2b-sshd <ip>\non host.example <nil>" := by decide +kernel
example : out "family=inet6".toList = some "add f2b-sshd6 <ip>\non host.example <nil>" := by decide +kernel

end QueryExample

end Verif
