import Verif.Spec.Googlebot
import Verif.Props.IPAddr
import Verif.Props.Ignore
import Verif.Lemmas.NetLibSample

/-! # C114: the ignore command for crawlers -/

namespace Verif.Googlebot

open Verif Verif.IPAddr Verif.GooglebotSpec Verif.Spec.Filt

theorem after_iff (p s r : Str) : after p s = some r ↔ s = p ++ r := by
  induction p generalizing s with
  | nil => simp only [after, Option.some.injEq, List.nil_append]
  | cons c p ih =>
    cases s with
    | nil => simp [after]
    | cons d s =>
      unfold after
      split
      · rename_i h; subst h; rw [ih]; simp
      · rename_i h
        constructor
        · intro e; cases e
        · intro e; injection e with e1 e2; exact absurd e1.symm h

theorem atEnd_iff (s : Str) : atEnd s = true ↔ s = [] ∨ s = ['\n'] := by
  unfold atEnd
  simp only [Bool.or_eq_true, beq_iff_eq]

theorem com_iff (r : Str) : com r = true ↔ ∃ nl, r = ".com".toList ++ nl ∧ (nl = [] ∨ nl = ['\n']) := by
  unfold com
  split
  · rename_i h
    constructor
    · intro e; cases e
    · rintro ⟨nl, e, _⟩
      rw [(after_iff _ _ _).mpr e] at h
      cases h
  · rename_i t h
    rw [atEnd_iff]
    have e := (after_iff _ _ _).mp h
    constructor
    · intro ht; exact ⟨t, e, ht⟩
    · rintro ⟨nl, e', hn⟩
      rw [e] at e'
      rw [List.append_cancel_left e']; exact hn

theorem domain_iff (s : Str) : domain s = true ↔ ∃ d nl, s = d ++ nl ∧ (d = ".google.com".toList ∨ d = ".googlebot.com".toList) ∧ (nl = [] ∨ nl = ['\n']) := by
  have e1 : ".google.com".toList = ".google".toList ++ ".com".toList := by decide +kernel
  have e2 : ".googlebot.com".toList = ".google".toList ++ ("bot".toList ++ ".com".toList) := by decide +kernel
  unfold domain
  split
  · rename_i h
    constructor
    · intro e; cases e
    · rintro ⟨d, nl, rfl, rfl | rfl, _⟩
      · rw [e1, List.append_assoc, (after_iff _ _ _).mpr rfl] at h; cases h
      · rw [e2, List.append_assoc, (after_iff _ _ _).mpr rfl] at h; cases h
  · rename_i r h
    have hs := (after_iff _ _ _).mp h
    split
    · rename_i hb
      rw [com_iff]
      constructor
      · rintro ⟨nl, hr, hn⟩
        exact ⟨_, nl, by rw [hs, hr, e1]; simp only [List.append_assoc], Or.inl rfl, hn⟩
      · rintro ⟨d, nl, hd, rfl | rfl, hn⟩
        · rw [hs, e1, List.append_assoc] at hd
          exact ⟨nl, List.append_cancel_left hd, hn⟩
        · rw [hs, e2, List.append_assoc] at hd
          have hr := List.append_cancel_left hd
          rw [List.append_assoc] at hr
          rw [(after_iff _ _ _).mpr hr] at hb; cases hb
    · rename_i r' hb
      have hr := (after_iff _ _ _).mp hb
      rw [Bool.or_eq_true, com_iff, com_iff]
      constructor
      · rintro (⟨nl, hr', hn⟩ | ⟨nl, hr', hn⟩)
        · exact ⟨_, nl, by rw [hs, hr, hr', e2]; simp only [List.append_assoc], Or.inr rfl, hn⟩
        · exact ⟨_, nl, by rw [hs, hr', e1]; simp only [List.append_assoc], Or.inl rfl, hn⟩
      · rintro ⟨d, nl, hd, rfl | rfl, hn⟩
        · right
          rw [hs, e1, List.append_assoc] at hd
          exact ⟨nl, List.append_cancel_left hd, hn⟩
        · left
          rw [hs, e2, List.append_assoc, hr] at hd
          have hr' := List.append_cancel_left hd
          rw [List.append_assoc] at hr'
          exact ⟨nl, List.append_cancel_left hr', hn⟩

/-- The expression is that of hosts of google.com and googlebot.com: nothing follows the domain, and a dot is before it. -/
theorem C114_name (h : Str) : isName h = true ↔ Google h := by
  unfold Google
  induction h with
  | nil =>
    unfold isName
    rw [domain_iff]
    constructor
    · rintro ⟨d, nl, e, hd, hn⟩; exact ⟨[], d, nl, e, List.not_mem_nil, hd, hn⟩
    · rintro ⟨p, d, nl, e, hp, hd, hn⟩
      have := (List.append_eq_nil_iff.mp e.symm).1
      rw [(List.append_eq_nil_iff.mp this).2] at hd
      rcases hd with hd | hd <;> exact absurd hd (by decide +kernel)
  | cons c s ih =>
    unfold isName
    rw [Bool.or_eq_true, domain_iff, Bool.and_eq_true, ih, decide_eq_true_iff]
    constructor
    · rintro (⟨d, nl, e, hd, hn⟩ | ⟨hc, p, d, nl, e, hp, hd, hn⟩)
      · exact ⟨[], d, nl, e, List.not_mem_nil, hd, hn⟩
      · refine ⟨c :: p, d, nl, by rw [e]; rfl, ?_, hd, hn⟩
        intro hm
        rcases List.mem_cons.mp hm with h | h
        · exact hc h.symm
        · exact hp h
    · rintro ⟨p, d, nl, e, hp, hd, hn⟩
      cases p with
      | nil => exact Or.inl ⟨d, nl, e, hd, hn⟩
      | cons a p =>
        injection e with e1 e2
        subst e1
        exact Or.inr ⟨fun h => hp (by rw [h]; exact List.mem_cons_self ..), p, d, nl, e2, fun h => hp (List.mem_cons_of_mem _ h), hd, hn⟩

theorem google_ne {h : Str} (hg : Google h) : h.isEmpty = false := by
  cases h with
  | nil => exact absurd ((C114_name []).mpr hg) (by decide +kernel)
  | cons => rfl

theorem member_iff (lib : NetLib) (ip : Str) (ips : List IPAddr) :
    member lib ip ips = true ↔ ∃ x y, IPAddr.new lib ip = some x ∧ y ∈ ips ∧ y.ntoa lib = ip ∧ y.eq x = true := by
  unfold member
  rw [List.any_eq_true]
  constructor
  · rintro ⟨y, hy, h⟩
    rw [Bool.and_eq_true, decide_eq_true_iff] at h
    obtain ⟨h1, h2⟩ := h
    split at h2
    · rename_i x hx; exact ⟨x, y, hx, hy, h1, h2⟩
    · cases h2
  · rintro ⟨x, y, hx, hy, h1, h2⟩
    refine ⟨y, hy, ?_⟩
    rw [hx, Bool.and_eq_true, decide_eq_true_iff]
    exact ⟨h1, h2⟩

theorem check_iff (a : Answers) (ip : Str) : check a ip (a.reverse ip) = some true ↔ Confirmed a ip := by
  unfold check Confirmed
  split
  · rename_i h; simp [h]
  · rename_i h; simp [h]
  · rename_i h' h
    rw [Option.some.injEq, Bool.and_eq_true, Bool.and_eq_true, C114_name, member_iff, h]
    constructor
    · rintro ⟨⟨_, hg⟩, x, y, hx, hy, h1, h2⟩
      exact ⟨h', x, y, rfl, hg, hx, hy, h1, h2⟩
    · rintro ⟨g, x, y, e, hg, hx, hy, h1, h2⟩
      cases e
      exact ⟨⟨by rw [google_ne hg]; rfl, hg⟩, x, y, hx, hy, h1, h2⟩

theorem check_unknown (a : Answers) (ip : Str) : check a ip .unknown = some false := rfl

theorem isGooglebot_iff (a : Answers) (ip : Str) (l : Bool) : isGooglebot a ip l = some true ↔ Confirmed a ip ∧ (l = true → a.inTime = true) := by
  unfold isGooglebot
  cases l with
  | false => simp only [Bool.false_eq_true, if_false, false_implies, and_true, check_iff]
  | true =>
    cases ht : a.inTime with
    | false => simp [check_unknown]
    | true =>
      simp only [if_true, and_true, implies_true]
      rw [← check_iff]
      split
      · rename_i h; rw [h]; simp [check]
      · rfl

theorem isGooglebot_none (a : Answers) (ip : Str) (l : Bool) : isGooglebot a ip l = none ↔ l = false ∧ a.reverse ip = .raises := by
  unfold isGooglebot
  cases l with
  | false =>
    simp only [Bool.false_eq_true, if_false, true_and]
    cases a.reverse ip <;> simp [check]
  | true =>
    cases a.inTime <;> cases h : a.reverse ip <;> simp [check]

theorem processArgs_iff (a : Answers) (args : List Str) (ip : Str) (l : Bool) :
    (∃ t, processArgs a.lib args = some (ip, t) ∧ limited a t = some l) ↔ Arguments a args ip l := by
  constructor
  · rintro ⟨t, h, hl⟩
    unfold processArgs at h
    split at h
    · obtain ⟨x, hx, h⟩ := Option.bind_eq_some_iff.mp h
      split at h
      · rename_i hv; cases h; cases hl; exact .one ip x hx hv
      · cases h
    · obtain ⟨x, hx, h⟩ := Option.bind_eq_some_iff.mp h
      split at h
      · rename_i hv
        cases h
        unfold limited at hl
        simp only at hl
        split at hl
        · rename_i ht; subst ht; cases hl; exact .empty ip x hx hv
        · rename_i ht; exact .two ip _ l x hx hv ht hl
      · cases h
    · cases h
  · intro h
    cases h with
    | one _ x hx hv => exact ⟨none, by simp [processArgs, hx, hv], rfl⟩
    | empty _ x hx hv => exact ⟨some [], by simp [processArgs, hx, hv], rfl⟩
    | two _ t _ x hx hv ht hn => exact ⟨some t, by simp [processArgs, hx, hv], by simp [limited, ht, hn]⟩

/-- The command accepts an address exactly if the arguments are right and the name service confirms it, within the time limit if there is one. -/
theorem C114_accepts (a : Answers) (args : List Str) : exitCode a args = 0 ↔ ∃ ip l, Arguments a args ip l ∧ Confirmed a ip ∧ (l = true → a.inTime = true) := by
  have key : exitCode a args = 0 ↔ ∃ ip t l, processArgs a.lib args = some (ip, t) ∧ limited a t = some l ∧ isGooglebot a ip l = some true := by
    unfold exitCode
    split
    · rename_i h; simp [h]
    · rename_i ip t h
      split
      · rename_i h'; simp [h, h']
      · rename_i l h'
        split
        · rename_i h''
          refine ⟨fun e => (by cases e), ?_⟩
          rintro ⟨_, _, _, e1, e2, e3⟩
          rw [h] at e1; cases e1; rw [h'] at e2; cases e2; rw [h''] at e3; cases e3
        · rename_i h''; exact ⟨fun _ => ⟨ip, t, l, h, h', h''⟩, fun _ => rfl⟩
        · rename_i h''
          refine ⟨fun e => (by cases e), ?_⟩
          rintro ⟨_, _, _, e1, e2, e3⟩
          rw [h] at e1; cases e1; rw [h'] at e2; cases e2; rw [h''] at e3; cases e3
  rw [key]
  constructor
  · rintro ⟨ip, t, l, h1, h2, h3⟩
    exact ⟨ip, l, (processArgs_iff ..).mp ⟨t, h1, h2⟩, (isGooglebot_iff ..).mp h3⟩
  · rintro ⟨ip, l, h1, h2⟩
    obtain ⟨t, h3, h4⟩ := (processArgs_iff ..).mpr h1
    exact ⟨ip, t, l, h3, h4, (isGooglebot_iff ..).mpr h2⟩

/-- Exit codes: 0 or 1 for right arguments and an answer, 2 otherwise. -/
theorem C114_codes (a : Answers) (args : List Str) :
    (exitCode a args = 0 ∨ exitCode a args = 1 ∨ exitCode a args = 2) ∧
      (exitCode a args = 2 ↔ ∀ ip l, Arguments a args ip l → l = false ∧ a.reverse ip = .raises) := by
  have key : exitCode a args = 2 ↔ ∀ ip t l, processArgs a.lib args = some (ip, t) → limited a t = some l → isGooglebot a ip l = none := by
    unfold exitCode
    split
    · rename_i h; simp [h]
    · rename_i ip t h
      split
      · rename_i h'
        simp only [true_iff]
        intro ip' t' l' e1 e2
        rw [h] at e1; cases e1
        rw [h'] at e2; cases e2
      · rename_i l h'
        have u : (∀ ip t l, processArgs a.lib args = some (ip, t) → limited a t = some l → isGooglebot a ip l = none) ↔ isGooglebot a ip l = none := by
          constructor
          · intro hh; exact hh ip t l h h'
          · intro hh ip' t' l' e1 e2
            rw [h] at e1; cases e1
            rw [h'] at e2; cases e2
            exact hh
        rw [u]
        split
        · rename_i h''; simp [h'']
        · rename_i h''; simp [h'']
        · rename_i h''; simp [h'']
  constructor
  · unfold exitCode
    split
    · simp
    · split
      · simp
      · split <;> simp
  · rw [key]
    constructor
    · intro h ip l ha
      obtain ⟨t, h1, h2⟩ := (processArgs_iff ..).mpr ha
      exact (isGooglebot_none ..).mp (h ip t l h1 h2)
    · intro h ip t l h1 h2
      exact (isGooglebot_none ..).mpr (h ip l ((processArgs_iff ..).mp ⟨t, h1, h2⟩))

/-- Names of addresses are chosen by whoever owns the address. If names of Google only have addresses of Google, no other address is accepted, whatever
names there are, how late they come, and whatever the arguments are. -/
theorem C114_safe (a : Answers) (own : IPAddr → Prop) (hown : ∀ h, Google h → ∀ y ∈ a.forward h, own y) (args : List Str) (h : exitCode a args = 0) :
    ∃ ip x y, args.head? = some ip ∧ IPAddr.new a.lib ip = some x ∧ own y ∧ y.eq x = true := by
  obtain ⟨ip, l, ha, ⟨g, x, y, _, hg, hx, hy, _, he⟩, _⟩ := (C114_accepts a args).mp h
  refine ⟨ip, x, y, ?_, hx, hown g hg y hy, he⟩
  cases ha <;> rfl

/-- An address given as the filter gives it (its own text) is found by its value. -/
theorem C114_text (a : Answers) (x : IPAddr) (h : IPAddr.new a.lib (x.ntoa a.lib) = some x) (hr : x.family ≠ .raw) :
    Confirmed a (x.ntoa a.lib) ↔ ∃ g, a.reverse (x.ntoa a.lib) = .name g ∧ Google g ∧ ∃ y ∈ a.forward g, y.eq x = true := by
  obtain ⟨_, hsym, _, htxt⟩ := C31_equality a.lib
  constructor
  · rintro ⟨g, x', y, h1, h2, h3, h4, _, h6⟩
    rw [h] at h3; cases h3
    exact ⟨g, h1, h2, y, h4, h6⟩
  · rintro ⟨g, h1, h2, y, h4, h6⟩
    exact ⟨g, x, y, h1, h2, h, h4, (htxt x y hr (by rw [hsym]; exact h6)).symm, h6⟩

/-- In the filter, without a cache: besides listed addresses, exactly those confirmed in time are ignored, and the question always has an answer. -/
theorem C114_ignored (env : IgnoreEnv) (a : Answers) (g : Ignore) (x : IPAddr) (now : Int) (hlib : env.lib = a.lib) (hc : g.command = true) (hcache : g.cache = none)
    (hx : IPAddr.new a.lib (x.ntoa a.lib) = some x) (hv : x.isValid = true) :
    ((g.inIgnoreIPList (withCommand env a) now x).1 = some true ↔ Listed env g x ∨ (Confirmed a (x.ntoa a.lib) ∧ a.inTime = true)) ∧
      (g.inIgnoreIPList (withCommand env a) now x).1 ≠ none := by
  obtain ⟨h1, _, h3, _⟩ := C33_decision (withCommand env a) now g x hcache
  have hl : Listed (withCommand env a) g x ↔ Listed env g x := Iff.rfl
  have hcode : (withCommand env a).command x = some (exitCode a [x.ntoa a.lib]) := by
    show some (exitCode a [x.ntoa env.lib]) = _
    rw [hlib]
  constructor
  · rw [h1]
    unfold Ignored
    rw [hl, hcode, Option.some.injEq, C114_accepts]
    constructor
    · rintro (h | ⟨_, ip, l, ha, hcf, ht⟩)
      · exact Or.inl h
      · cases ha with
        | one => exact Or.inr ⟨hcf, ht rfl⟩
    · rintro (h | ⟨hcf, ht⟩)
      · exact Or.inl h
      · exact Or.inr ⟨hc, _, true, .one _ x hx hv, hcf, fun _ => ht⟩
  · intro h
    obtain ⟨_, _, h⟩ := h3.mp h
    rw [hcode] at h
    cases h

/-! ## Examples -/

/-- 66.249.66.1 is a crawler; 192.0.2.7 says so only; 192.0.2.8 has a name that merely looks like one; 66.249.66.2 has its name in capitals. -/
def sample : Answers where
  lib := Sample.lib
  inTime := true
  number := fun t => if t = "0".toList then some false else if t = "5".toList then some true else none
  reverse := fun ip =>
    if ip = "66.249.66.1".toList ∨ ip = "192.0.2.7".toList then .name "crawl-66-249-66-1.googlebot.com".toList
    else if ip = "192.0.2.8".toList then .name "crawl.googlebot.com.example.org".toList
    else if ip = "66.249.66.2".toList then .name "Crawl.GoogleBot.com".toList
    else if ip = "192.0.2.9".toList then .raises
    else if ip = "0000:0000:0000:0000:0000:0000:0000:0A01".toList ∨ ip = "0000:0000:0000:0000:0000:0000:0000:0a01".toList then .name "six.google.com".toList
    else .unknown
  forward := fun h =>
    (if h = "crawl-66-249-66-1.googlebot.com".toList then ["66.249.66.1"]
    else if h = "crawl.googlebot.com.example.org".toList then ["192.0.2.8"]
    else if h = "Crawl.GoogleBot.com".toList then ["66.249.66.2"]
    else if h = "six.google.com".toList then ["0000:0000:0000:0000:0000:0000:0000:0a01"]
    else []).filterMap (fun s => IPAddr.new Sample.lib s.toList)

example : exitCode sample ["66.249.66.1".toList] = 0 := by decide +kernel
example : exitCode sample ["192.0.2.7".toList] = 1 := by decide +kernel
example : exitCode sample ["192.0.2.8".toList] = 1 := by decide +kernel
example : exitCode { sample with inTime := false } ["66.249.66.1".toList] = 1 := by decide +kernel
example : exitCode { sample with inTime := false } ["66.249.66.1".toList, "0".toList] = 0 := by decide +kernel
example : exitCode { sample with inTime := false } ["66.249.66.1".toList, []] = 0 := by decide +kernel
example : exitCode sample ["66.249.66.1".toList, "soon".toList] = 2 := by decide +kernel
example : exitCode sample [] = 2 := by decide +kernel
example : exitCode sample ["host".toList] = 2 := by decide +kernel
example : exitCode sample ["192.0.2.9".toList] = 1 := by decide +kernel
example : exitCode sample ["192.0.2.9".toList, "0".toList] = 2 := by decide +kernel
example : isName "www.google.com\n".toList = true := by decide +kernel
example : isName "google.com".toList = false := by decide +kernel
example : isName "a\n.google.com".toList = false := by decide +kernel
example : isName ".google.com.googlebot.com".toList = true := by decide +kernel

/-- `C114_text` has instances: the text of 66.249.66.1 reads as this address. -/
example : ∃ x, x.ntoa sample.lib = "66.249.66.1".toList ∧ IPAddr.new sample.lib (x.ntoa sample.lib) = some x ∧ x.family ≠ .raw ∧ x.isValid = true :=
  ⟨(IPAddr.new Sample.lib "66.249.66.1".toList).get (by decide +kernel), by decide +kernel, by decide +kernel, by decide +kernel, by decide +kernel⟩

/-- Names do not depend on case, but a name with capitals is not accepted. -/
theorem C114_refuted_case : ∃ (a : Answers) (ip h : Str) (x y : IPAddr), a.reverse ip = .name h ∧ Google (h.map Char.toLower) ∧ IPAddr.new a.lib ip = some x ∧
    y ∈ a.forward h ∧ y.eq x = true ∧ exitCode a [ip] = 1 :=
  ⟨sample, "66.249.66.2".toList, "Crawl.GoogleBot.com".toList, (IPAddr.new Sample.lib "66.249.66.2".toList).get (by decide +kernel),
    (IPAddr.new Sample.lib "66.249.66.2".toList).get (by decide +kernel), by decide +kernel, (C114_name _).mp (by decide +kernel), by decide +kernel, by decide +kernel,
    by decide +kernel, by decide +kernel⟩

end Verif.Googlebot
