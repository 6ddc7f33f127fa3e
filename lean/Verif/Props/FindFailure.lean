import Verif.Lemmas.FindLine

/-!
# C57-C59: from a log line to failures
-/

namespace Verif

open Find Spec.Find

/-! ## A small filter for the examples -/

namespace FindSample

/-- groups from a list -/
def gs (l : List (String × String)) : Groups := l.foldl (fun d kv => d.insert kv.1 (some kv.2)) Dict.empty

/-- an expression given by the texts it matches -/
def rx (l : List (String × List (String × String))) : Rx := fun t => (l.find? (fun x => x.1 == t)).map (fun x => { groups := gs x.2 })

/-- an address -/
def ip (t : String) : IPAddr := ⟨.raw, 0, 0, t.toList⟩

/-- prefix `[conn]` of a line; the rest is the content (for all lines that occur) -/
def pref : Rx := rx ((["1", "2", "3"] : List String).flatMap (fun c => (["fail bob", "fail eve", "connect A", "accept bob", "close A"] : List String).map (fun t =>
  ("[" ++ c ++ "]" ++ t ++ "\n", [("mlfid", c), ("content", t)]))))

/-- a filter like the one of sshd: lines of a connection, of which some name the host -/
def env : FindEnv where
  failRegex := [rx [("fail bob\n", [("user", "bob")]), ("fail eve\n", [("user", "eve")])],
    rx [("connect A\n", [("ip4", "A"), ("nofail", "connect")])],
    rx [("accept bob\n", [("user", "bob"), ("mlfgained", "accept")])],
    rx [("close A\n", [("ip4", "A"), ("mlfforget", "close"), ("nofail", "close")])]]
  prefRegex := some pref
  addr := fun t _ _ => some (ip t)
  textToIp := fun t => [ip t]

/-- a line -/
def ln (s : String) : TLine := ⟨"", "12:00", s⟩

/-- a line read -/
def rd (s : String) (now : Int := 0) : Read := ⟨now, false, ln s⟩

/-- answers to some lines: ids and lines -/
def tell (e : FindEnv) (rs : List Read) : List (Option (List (Nat × IPAddr × List TLine))) := (answers e {} rs).map told

end FindSample

open FindSample

/-! ## C57: the lines of a connection -/

/-- A line that belongs to a connection is answered rightly, according to all lines of the connection that are remembered. -/
theorem C57_right {env : FindEnv} (hl : env.maxLines ≤ 1) (n : Nat) (life : Int) (buffer : List TLine) (rs : List Read) (xs : List Step) (hs : Steps env rs xs)
    (hx : ∀ past x rest, xs = past ++ x :: rest → Room n life past.reverse x) (r : Read) (x : Step) (hr : StepOf env r x) :
    ∃ o, (findFailure env r.now r.drop (runLines env ⟨buffer, Cache.init n life⟩ rs) r.line).1 = answer o
      ∧ Right env (x.ev :: (alive life x.now (kept life x.conn xs.reverse)).map Step.ev) x.index o :=
  right_line hl n life buffer rs xs hs hx r x hr

/-- The same for matches of several lines: of whatever lines they consist. -/
theorem C57_right_match {env : FindEnv} (n : Nat) (life : Int) (buffer : List TLine) (xs : List Step)
    (hx : ∀ past x rest, xs = past ++ x :: rest → x.groups.val "mlfid" = some x.conn ∧ Room n life past.reverse x)
    (x : Step) (hm : x.groups.val "mlfid" = some x.conn) :
    Right env (x.ev :: (alive life x.now (kept life x.conn xs.reverse)).map Step.ev) x.index
      (handle env x.now (run env ⟨buffer, Cache.init n life⟩ xs) x.index x.groups x.lines).1 :=
  (inv_run n life buffer xs hx).right x rfl hm

/-- Lines without a match (or without a date) report nothing and change nothing for any connection. -/
theorem C57_skip (env : FindEnv) (hl : env.maxLines ≤ 1) (now : Int) (drop : Bool) (s : FindState) (l : TLine)
    (h : drop = true ∨ ∀ i v, ¬ Matches env l i v) :
    (findFailure env now drop s l).1 = some [] ∧ (findFailure env now drop s l).2.conns = s.conns :=
  find_skip env hl now drop s l h

/-- Other connections do not matter. -/
theorem C57_isolated {env : FindEnv} (hl : env.maxLines ≤ 1) (n : Nat) (life : Int) (b b' : List TLine) (rs rs' : List Read) (xs xs' : List Step)
    (hs : Steps env rs xs) (hs' : Steps env rs' xs')
    (hx : ∀ past x rest, xs = past ++ x :: rest → Room n life past.reverse x) (hx' : ∀ past x rest, xs' = past ++ x :: rest → Room n life past.reverse x)
    (r : Read) (x : Step) (hr : StepOf env r x)
    (same : xs.filter (fun y => decide (y.conn = x.conn)) = xs'.filter (fun y => decide (y.conn = x.conn))) :
    told (findFailure env r.now r.drop (runLines env ⟨b, Cache.init n life⟩ rs) r.line).1
      = told (findFailure env r.now r.drop (runLines env ⟨b', Cache.init n life⟩ rs') r.line).1 := by
  obtain ⟨o, h1, h2⟩ := right_line hl n life b rs xs hs hx r x hr
  obtain ⟨o', h1', h2'⟩ := right_line hl n life b' rs' xs' hs' hx' r x hr
  rw [h1, h1']
  have e : kept life x.conn xs.reverse = kept life x.conn xs'.reverse := by
    rw [← kept_filter life x.conn xs.reverse, ← kept_filter life x.conn xs'.reverse, List.filter_reverse, List.filter_reverse, same]
  rw [e] at h2
  exact right_told h2 h2'

/-- Every line of a connection is reported exactly once and in order, apart from the ones still waiting (as long as access is not gained and the connection
is not forgotten or older than `life`). -/
theorem C57_once {env : FindEnv} (hl : env.maxLines ≤ 1) (n : Nat) (hn : 0 < n) (life : Int) (buffer : List TLine) (m : String)
    (zs : List (Read × Step)) (h : ∀ z ∈ zs, StepOf env z.1 z.2 ∧ z.2.conn = m ∧ z.2.ev.flag "mlfforget" = false ∧ z.2.ev.flag "mlfgained" = false)
    (ht : ∀ x ∈ zs, ∀ y ∈ zs, x.2.now < y.2.now + life)
    (hi : ∀ a b, zs = a ++ b → ids env (val (a.reverse.map (fun z => z.2.ev))) = some none
      ∨ ∃ f fs o, ids env (val (a.reverse.map (fun z => z.2.ev))) = some (some (f :: fs, o))) :
    ∃ left, ((answers env ⟨buffer, Cache.init n life⟩ (zs.map Prod.fst)).map reported).flatten ++ left = zs.map (fun z => z.1.line)
      ∧ (status env (zs.reverse.map (fun z => z.2.ev)) = .report → left = []) := by
  refine ⟨left env (zs.reverse.map (fun z => z.2.ev)), ?_, fun hs => by rw [left, if_pos hs]⟩
  have := once_aux hl n hn life buffer m zs.reverse (fun z hz => h z (List.mem_reverse.1 hz))
    (fun x hx y hy => ht x (List.mem_reverse.1 hx) y (List.mem_reverse.1 hy))
    (fun a b e => by
      have := hi b.reverse a.reverse (by rw [← List.reverse_append, ← e, List.reverse_reverse])
      rwa [List.reverse_reverse] at this)
  rw [List.reverse_reverse] at this
  exact this

/-- Once the host is known, a line that is marked as a failure is reported. -/
theorem C57_failure (env : FindEnv) (e : Ev) (h : List Ev) (hn : e.flag "nofail" = false) (hg : e.flag "mlfgained" = false)
    (hi : ids env (val (e :: h)) ≠ some none) : status env (e :: h) = .report := by
  simp [status, hn, hg, hi]

/-- A failure waiting for its host is reported with the line that tells it, even if this line is not a failure. -/
theorem C57_host (env : FindEnv) (e : Ev) (h : List Ev) (hp : status env h = .pending) (hg : e.flag "mlfgained" = false)
    (hi : ids env (val (e :: h)) ≠ some none) : status env (e :: h) = .report ∧ waiting env (e :: h) = waiting env h ++ e.lines := by
  simp [status, waiting, hp, hg, hi]

/-- With different users every further line counts, even a successful log in. -/
theorem C57_users (env : FindEnv) (e : Ev) (h : List Ev) (a b : Ev) (ha : a ∈ e :: h) (hb : b ∈ e :: h) (ua : a.user ≠ none) (ub : b.user ≠ none)
    (hne : a.user ≠ b.user) (hi : ids env (val (e :: h)) ≠ some none) : status env (e :: h) = .report := by
  have hs : several (e :: h) = true := by
    simp only [several, List.any_eq_true, Bool.and_eq_true, decide_eq_true_eq]
    exact ⟨a, ha, b, hb, ⟨Option.isSome_iff_ne_none.2 ua, Option.isSome_iff_ne_none.2 ub⟩, hne⟩
  simp [status, hs, hi]

/-- The successful log in of the only user is no failure and drops failures waiting for their host. -/
theorem C57_gained (env : FindEnv) (e : Ev) (h : List Ev) (hg : e.flag "mlfgained" = true) (hs : several (e :: h) = false) :
    status env (e :: h) = .nofail ∧ (status env h = .pending → waiting env (e :: h) = e.lines) := by
  refine ⟨by simp [status, hg, hs], fun hp => by simp [waiting, hp, hg]⟩

namespace FindSample

/-- what is captured of a line `1 fail A` -/
def m1 : RxMatch := { groups := gs [("mlfid", "1"), ("ip4", "A")] }

/-- a filter without prefix -/
def env1 : FindEnv where
  failRegex := [fun t => if t = "1 fail A\n" then some m1 else none]
  ignoreRegex := [fun _ => none]
  addr := fun t _ _ => some (ip t)
  textToIp := fun _ => []

/-- the step of the line -/
def x1 : Step := ⟨0, "1", 0, m1.groups, [ln "1 fail A"]⟩

theorem matches1 : Matches env1 (ln "1 fail A") 0 m1.groups.val := by
  have h : whole (ln "1 fail A") = "1 fail A\n" := by decide +kernel
  refine ⟨whole (ln "1 fail A"), fun _ => none, m1, rfl, ⟨⟨_, rfl, if_pos h⟩, fun j hj => absurd hj (Nat.not_lt_zero j)⟩, ?_, ?_, ?_⟩
  · funext k
    simp only [captured]
    split
    · rfl
    · rename_i hk
      rw [Groups.val, (Dict.get?_eq_none_iff _ _).2 hk]; rfl
  · rintro ⟨r, hr, h⟩
    rw [List.mem_singleton.1 hr] at h
    exact h rfl
  · rintro ⟨_, r, hr, h⟩
    rw [List.mem_singleton.1 hr] at h
    exact h rfl

theorem step1 : StepOf env1 (rd "1 fail A") x1 := ⟨rfl, matches1, by decide +kernel, rfl, rfl⟩

end FindSample

/-- the hypotheses of `C57_right` and `C57_once` hold for the sample -/
example : Steps env1 [rd "1 fail A"] [x1] ∧ (∀ past y rest, [x1] = past ++ y :: rest → Room 100 300 past.reverse y)
    ∧ x1.ev.flag "mlfforget" = false ∧ x1.ev.flag "mlfgained" = false := by
  refine ⟨.step step1 .nil, ?_, by decide +kernel, by decide +kernel⟩
  intro past y rest e
  have : past = [] := by
    cases past with
    | nil => rfl
    | cons a as => simp at e
  subst this
  exact ⟨[], by decide, fun m _ hk => absurd rfl hk⟩

/-- interleaved connections: the failures of the first are reported as soon as its host is known, with all lines; the second is a successful log in -/
example : tell FindSample.env [rd "[1]fail bob", rd "[2]connect A", rd "[1]connect A", rd "[2]accept bob", rd "[1]fail bob", rd "[1]close A", rd "[1]close A"]
    = [some [], some [], some [(1, ip "A", [ln "[1]fail bob", ln "[1]connect A"])], some [], some [(0, ip "A", [ln "[1]fail bob"])], some [], some []] := by
  decide +kernel

/-- different users: the successful log in counts as failure; nothing is dropped -/
example : tell FindSample.env [rd "[1]fail eve", rd "[1]accept bob", rd "[1]connect A"]
    = [some [], some [], some [(1, ip "A", [ln "[1]accept bob", ln "[1]connect A"])]] := by
  decide +kernel

/-- gained access: the waiting failure is dropped -/
example : tell FindSample.env [rd "[1]fail bob", rd "[1]accept bob", rd "[1]connect A", rd "[1]fail bob"]
    = [some [], some [], some [], some [(0, ip "A", [ln "[1]accept bob", ln "[1]connect A", ln "[1]fail bob"])]] := by
  decide +kernel

/-- The limits of memory are real: a failure waiting for its host is lost 300 seconds after the first line of its connection ... -/
theorem C57_limit_time :
    tell FindSample.env [rd "[1]fail bob" 0, rd "[1]connect A" 299] = [some [], some [(1, ip "A", [ln "[1]fail bob", ln "[1]connect A"])]]
    ∧ tell FindSample.env [rd "[1]fail bob" 0, rd "[1]connect A" 300] = [some [], some []] := by
  constructor <;> decide +kernel

/-- ... and if there are as many newer connections as can be remembered (here 2 instead of 100). -/
theorem C57_limit_count :
    (answers FindSample.env { conns := Cache.init 2 300 } [rd "[1]fail bob", rd "[2]fail bob", rd "[1]connect A"]).map told
      = [some [], some [], some [(1, ip "A", [ln "[1]fail bob", ln "[1]connect A"])]]
    ∧ (answers FindSample.env { conns := Cache.init 2 300 } [rd "[1]fail bob", rd "[2]fail bob", rd "[3]fail bob", rd "[1]connect A"]).map told
      = [some [], some [], some [], some []] := by
  constructor <;> decide +kernel

/-! ## C58: what a line amounts to -/

/-- A line whose text (the content given by the prefix expression, if any) is to be ignored is not reported, whatever expression for failures matches. -/
theorem C58_ignored (env : FindEnv) (hl : env.maxLines ≤ 1) (now : Int) (drop : Bool) (s : FindState) (l : TLine)
    (h : ∀ t p, searched env l = some (t, p) → Ignores env t) :
    (findFailure env now drop s l).1 = some [] ∧ (findFailure env now drop s l).2.conns = s.conns :=
  find_skip env hl now drop s l (Or.inr (fun _ _ ⟨t, p, _, hs, _, _, hi, _⟩ => hi (h t p hs)))

/-- No expression matches, or the prefix does not: nothing is reported. -/
theorem C58_none (env : FindEnv) (hl : env.maxLines ≤ 1) (now : Int) (drop : Bool) (s : FindState) (l : TLine)
    (h : ∀ t p, searched env l = some (t, p) → ∀ r ∈ env.failRegex, r t = none) :
    (findFailure env now drop s l).1 = some [] ∧ (findFailure env now drop s l).2.conns = s.conns := by
  refine find_skip env hl now drop s l (Or.inr ?_)
  rintro i v ⟨t, p, m, hs, ⟨⟨r, h1, h2⟩, _⟩, _⟩
  rw [h t p hs r (List.mem_of_getElem? h1)] at h2
  cases h2

/-- A match outside of a connection is reported with all failure-ids, the captured values and the line. -/
theorem C58_found (env : FindEnv) (hl : env.maxLines ≤ 1) (now : Int) (s : FindState) (l : TLine) (i : Nat) (v : Vals) (h : Matches env l i v)
    (hc : v "mlfid" = none) (fids : List IPAddr) (host : Option IPAddr) (hi : ids env v = some (some (fids, host))) :
    ∃ f : Fail, findFailure env now false s l = (some (fids.map (fun fid => ⟨i, fid, f⟩)), ⟨[], s.conns⟩)
      ∧ f.groups.val = v ∧ f.lines = [l] ∧ f.ip = host ∧ f.users = [] := by
  obtain ⟨g, pre, hg, e⟩ := find_match env hl now s l i v h
  have hh : handle env now ⟨[], s.conns⟩ i g [l] = (.done (fids.map (fun fid => ⟨i, fid, { groups := g, lines := [l], ip := host }⟩)), ⟨[], s.conns⟩) := by
    unfold handle
    rw [hg, hc, identify_eq, hg, hi]
  rw [hh] at e
  exact ⟨_, e, hg, rfl, rfl, rfl⟩

/-- A match that identifies nobody is passed over; the remaining expressions get an empty text only, and what they find there is reported. -/
theorem C58_unidentified (env : FindEnv) (hl : env.maxLines ≤ 1) (now : Int) (s : FindState) (l : TLine) (t : String) (p : Vals)
    (hs : searched env l = some (t, p)) (i : Nat) (m : RxMatch) (hf : First env.failRegex t i m) (hi : ¬ Ignores env t)
    (hw : ¬ (Few env ∧ Ignores env (whole l))) (hc : captured p m.groups "mlfid" = none) (hn : ids env (captured p m.groups) = some none) :
    ((∀ r ∈ env.failRegex.drop (i + 1), r "\n" = none) → findFailure env now false s l = (some [], ⟨[], s.conns⟩))
    ∧ (∀ j m', First (env.failRegex.drop (i + 1)) "\n" j m' → ¬ Ignores env "\n" → captured p m'.groups "mlfid" = none →
        ∀ fids host, ids env (captured p m'.groups) = some (some (fids, host)) →
        ∃ f : Fail, findFailure env now false s l = (some (fids.map (fun fid => ⟨i + 1 + j, fid, f⟩)), ⟨[], s.conns⟩) ∧ f.lines = [l]) := by
  have hl' : ¬ 1 < env.maxLines := by omega
  have hbuf : TLine.buf [] = "\n" := by decide +kernel
  rcases find_single env hl now false s l with ⟨c1, c2, _⟩ | ⟨_, c, _⟩ | ⟨_, t', p', pre, b, hs', hp, e⟩
  · exact absurd ⟨c1, c2⟩ hw
  · rw [hs] at c; cases c
  · rw [hs] at hs'
    cases hs'
    have e1 : findFailure env now false s l = loop env now false [l] pre (env.failRegex.drop (i + 1)) (i + 1) ⟨[], s.conns⟩ "\n" := by
      rw [e, loop_first env now false [l] pre env.failRegex i 0 _ t m hf]
      unfold after
      rw [if_neg hl', if_neg (fun c => hi ((ignored_iff _ _).1 c)), if_neg Bool.false_ne_true]
      simp only [parts_single, handle, captured_eq hp, hc, identify_eq, hn, hbuf, Nat.zero_add]
    refine ⟨fun h => by rw [e1, loop_none _ _ _ _ _ _ _ _ _ h], ?_⟩
    intro j m' hf' hi' hc' fids host hids
    refine ⟨{ groups := pre.update m'.groups, lines := [l], ip := host }, ?_, rfl⟩
    rw [e1, loop_first env now false [l] pre _ j (i + 1) _ _ m' hf']
    unfold after
    rw [if_neg hl', if_neg (fun c => hi' ((ignored_iff _ _).1 c)), if_neg Bool.false_ne_true]
    simp only [parts_single, handle, captured_eq hp, hc', identify_eq, hids]

/-- The expression that counts is the first one that matches, and values captured by it replace the ones of the prefix. -/
theorem C58_first (env : FindEnv) (l : TLine) (i j : Nat) (v w : Vals) (h : Matches env l i v) (h' : Matches env l j w) : i = j ∧ v = w := by
  obtain ⟨t, p, m, hs, hf, rfl, _⟩ := h
  obtain ⟨t', p', m', hs', hf', rfl, _⟩ := h'
  rw [hs] at hs'
  cases hs'
  obtain ⟨h1, h2⟩ := first_unique hf hf'
  exact ⟨h1, by rw [h2]⟩

/-- Every line that matches and is not ignored counts, if no line of the log is ignored for its prefix only: without prefix expression, or if the content is
ignored whenever the whole line is. -/
theorem C58_counts_partial (env : FindEnv) (l : TLine) (t : String) (p : Vals) (hs : searched env l = some (t, p)) (i : Nat) (m : RxMatch)
    (hf : First env.failRegex t i m) (hi : ¬ Ignores env t) (hw : Ignores env (whole l) → Ignores env t) : Matches env l i (captured p m.groups) :=
  ⟨t, p, m, hs, hf, rfl, hi, fun c => hi (hw c.2)⟩

/-- Failure-ids: the address or host name, or what is captured as such. -/
theorem C58_address (env : FindEnv) (v : Vals) (t : String) (a : IPAddr) (h4 : v "ip4" = some t) (hf : v "fid" = none)
    (ha : env.addr t .ip4 (v "cidr") = some a) : ids env v = some (some ([a], none)) := by
  simp [ids, byName, host, address, h4, hf, ha]

/-- A host name is resolved, and every address is reported; without resolution the name itself is. -/
theorem C58_name (env : FindEnv) (v : Vals) (t : String) (h4 : v "ip4" = none) (h6 : v "ip6" = none) (hd : v "dns" = some t) :
    ids env v = if env.raw = true then
        (env.addr t .default none).bind (fun a => match v "fid" with
          | none => some (some ([a], none))
          | some f => if f = t then some (some ([a], none)) else (env.addr f .default none).map (fun i => some ([i], some a)))
      else some (some (env.textToIp t, none)) := by
  cases hr : env.raw
  · simp [ids, byName, hr, h4, h6, hd]
  · cases hf : v "fid" <;> simp [ids, byName, hr, h4, h6, hd, host, address, hf]

/-- An id of its own (`<F-ID>`) is the failure-id; the address is kept as `ip`. -/
theorem C58_fid (env : FindEnv) (v : Vals) (t f : String) (a b : IPAddr) (h4 : v "ip4" = some t) (hf : v "fid" = some f) (hne : f ≠ t)
    (ha : env.addr t .ip4 (v "cidr") = some a) (hb : env.addr f .default none = some b) : ids env v = some (some ([b], some a)) := by
  simp [ids, byName, host, address, h4, hf, ha, hb, hne]

namespace FindSample

/-- prefix `p: `; whole lines with `p: ` are ignored -/
def envIgnore (n : Nat) : FindEnv where
  failRegex := (rx [("fail\n", [("ip4", "A")])]) :: List.replicate n (rx [])
  ignoreRegex := [rx [("p: fail\n", []), ("p: err\n", [])]]
  prefRegex := some (rx [("p: fail\n", [("user", "bob"), ("content", "fail")]), ("p: err\n", [("user", "bob"), ("content", "err")])])
  addr := fun t _ _ => some (ip t)
  textToIp := fun _ => []

/-- the second expression for failures has an optional user -/
def envUser : FindEnv :=
  { envIgnore 0 with ignoreRegex := [], failRegex := [rx [("fail\n", [("ip4", "A")])], rx [], fun t => if t = "err\n" then
      some { groups := (gs [("ip4", "A")]).insert "user" none } else none] }

end FindSample

/-- Whether a line is ignored depends on how many expressions there are: an expression that matches only with the prefix ignores the line if there are at least
three more expressions for failures (so `C58_counts_partial` needs its hypothesis). -/
theorem C58_refuted_ignore : tell (envIgnore 2) [rd "p: fail"] = [some [(0, ip "A", [ln "p: fail"])]] ∧ tell (envIgnore 3) [rd "p: fail"] = [some []] := by
  constructor <;> decide +kernel

/-- A later expression that would identify the host is not tried, if an earlier one matches without identifying it. -/
theorem C58_refuted_unidentified :
    tell { env1 with failRegex := [rx [("fail A\n", [])], rx [("fail A\n", [("ip4", "A")])]] } [rd "fail A"] = [some []]
    ∧ tell { env1 with failRegex := [rx [], rx [("fail A\n", [("ip4", "A")])]] } [rd "fail A"] = [some [(1, ip "A", [ln "fail A"])]] := by
  constructor <;> decide +kernel

/-- A group that took no part in the match removes the value captured by the prefix. -/
theorem C58_refuted_prefix_value :
    ((answers envUser {} [rd "p: fail", rd "p: err"]).map (fun o => o.map (fun l => l.map (fun r => r.fail.groups.val "user")))) = [some [some "bob"], some [none]] := by
  decide +kernel

example : Matches env1 (ln "1 fail A") 0 m1.groups.val ∧ (ids env1 m1.groups.val).isSome = true := ⟨matches1, by decide +kernel⟩

/-! ## C59: matches of several lines -/

/-- A match splits the buffered lines: each line is either matched or stays. -/
theorem C59_partition (m : RxMatch) (h : m.first ≤ m.last) (org : List TLine) : ((m.parts org).matched ++ (m.parts org).unmatched).Perm org :=
  parts_perm m h org

/-- Exactly the lines of the match that are not skipped ones are taken: the others stay in order, the skipped ones in between. -/
theorem C59_skipped (m : RxMatch) (org : List TLine) (hn : 1 < org.length)
    (hs : m.skipped.Sublist (((org.take m.last).drop m.first).map TLine.text)) :
    ∃ sk : List TLine, sk.map TLine.text = m.skipped ∧ (m.parts org).unmatched = org.take m.first ++ sk ++ org.drop m.last
      ∧ ((m.parts org).matched ++ sk).Perm ((org.take m.last).drop m.first) ∧ (m.parts org).matched.Sublist ((org.take m.last).drop m.first) := by
  unfold RxMatch.parts
  rw [if_neg (by omega)]
  simp only
  obtain ⟨sk, h1, h2⟩ := skipLines_found m.skipped 0 ⟨(org.take m.last).drop m.first, org.take m.first⟩ (by simpa using hs)
  refine ⟨sk, h2, by rw [h1], ?_, skipLines_sublist _ _ _⟩
  have hp := skipLines_perm m.skipped 0 ⟨(org.take m.last).drop m.first, org.take m.first⟩
  rw [h1] at hp
  simp only at hp
  generalize (skipLines m.skipped 0 ⟨(org.take m.last).drop m.first, org.take m.first⟩).matched = A at hp ⊢
  generalize (org.take m.last).drop m.first = S at hp ⊢
  generalize org.take m.first = F at hp
  have h3 : (F ++ (A ++ sk)).Perm (F ++ S) := by
    refine List.Perm.trans ?_ (hp.trans List.perm_append_comm)
    rw [← List.append_assoc, ← List.append_assoc]
    exact List.perm_append_comm.append_right sk
  exact (List.perm_append_left_iff F).1 h3

/-- A single line is matched as a whole. -/
theorem C59_single (m : RxMatch) (l : TLine) : (m.parts [l]).matched = [l] ∧ (m.parts [l]).unmatched = [] := ⟨rfl, rfl⟩

/-- The last lines together are searched; if the first matching expression identifies a host, it is reported with the matched lines, and the other lines stay. -/
theorem C59_found (env : FindEnv) (hp : env.prefRegex = none) (hm : 1 < env.maxLines) (now : Int) (s : FindState) (l : TLine) (w : List TLine)
    (hw : w = lastLines env.maxLines (s.buffer ++ [l])) (hf : ¬ (Few env ∧ Ignores env (textOf w))) (i : Nat) (m : RxMatch)
    (h : First env.failRegex (textOf w) i m) (hi : ¬ Ignores env (textOf (m.parts w).matched)) (hc : m.groups.val "mlfid" = none)
    (fids : List IPAddr) (host : Option IPAddr) (hids : ids env m.groups.val = some (some (fids, host))) :
    ∃ f : Fail, findFailure env now false s l = (some (fids.map (fun fid => ⟨i, fid, f⟩)), ⟨(m.parts w).unmatched, s.conns⟩)
      ∧ f.groups.val = m.groups.val ∧ f.lines = (m.parts w).matched ∧ f.ip = host := by
  refine ⟨{ groups := Groups.update Dict.empty m.groups, lines := (m.parts w).matched, ip := host }, ?_, update_empty_val _, rfl, rfl⟩
  rw [find_several env hp hm now false s l w hw hf, loop_first env now false w Dict.empty env.failRegex i 0 _ _ m h]
  unfold after
  rw [if_pos hm, buf_eq, if_neg (fun c => hi ((ignored_iff _ _).1 c)), if_neg Bool.false_ne_true]
  simp only [handle, update_empty_val, hc, identify_eq, hids, Nat.zero_add]

/-- A match whose lines are to be ignored is not reported, and its lines are removed. -/
theorem C59_ignored (env : FindEnv) (hp : env.prefRegex = none) (hm : 1 < env.maxLines) (now : Int) (drop : Bool) (s : FindState) (l : TLine) (w : List TLine)
    (hw : w = lastLines env.maxLines (s.buffer ++ [l])) (hf : ¬ (Few env ∧ Ignores env (textOf w))) (i : Nat) (m : RxMatch)
    (h : First env.failRegex (textOf w) i m) (hi : Ignores env (textOf (m.parts w).matched)) :
    findFailure env now drop s l = (some [], ⟨(m.parts w).unmatched, s.conns⟩) := by
  rw [find_several env hp hm now drop s l w hw hf, loop_first env now drop w Dict.empty env.failRegex i 0 _ _ m h]
  unfold after
  rw [if_pos hm, buf_eq, if_pos ((ignored_iff _ _).2 hi)]

/-- Without a match the lines are kept for the next search. -/
theorem C59_nothing (env : FindEnv) (hp : env.prefRegex = none) (hm : 1 < env.maxLines) (now : Int) (drop : Bool) (s : FindState) (l : TLine) (w : List TLine)
    (hw : w = lastLines env.maxLines (s.buffer ++ [l])) (h : ∀ r ∈ env.failRegex, r (textOf w) = none) :
    findFailure env now drop s l = (some [], ⟨w, s.conns⟩) := by
  by_cases hf : Few env ∧ Ignores env (textOf w)
  · unfold findFailure
    simp only [if_pos hm, window_eq, ← hw, buf_eq]
    rw [if_pos ⟨hf.1, (ignored_iff _ _).2 hf.2⟩]
  · rw [find_several env hp hm now drop s l w hw hf, loop_none _ _ _ _ _ _ _ _ _ h]

/-- Never more than the configured number of lines is kept. -/
theorem C59_buffer {env : FindEnv} (hr : ∀ r ∈ env.failRegex, ∀ t m, r t = some m → m.first ≤ m.last) (s : FindState) (h : s.buffer.length ≤ max 1 env.maxLines)
    (rs : List Read) : (runLines env s rs).buffer.length ≤ max 1 env.maxLines := by
  induction rs generalizing s with
  | nil => exact h
  | cons r rs ih => exact ih _ (find_buffer hr r.now r.drop s r.line)

/-- Each line is part of at most one report, if there is no prefix expression and every match identifies a host: reported lines, lost ones and the ones still
kept are together the lines read. -/
theorem C59_once_partial {env : FindEnv} (h0 : env.prefRegex = none)
    (h : ∀ r ∈ env.failRegex, ∀ t m, r t = some m → m.first ≤ m.last ∧ m.groups.val "mlfid" = none ∧ ∃ f, ids env m.groups.val = some (some f))
    (s : FindState) (rs : List Read) :
    ∃ lost, (((answers env s rs).map reported).flatten ++ lost ++ (runLines env s rs).buffer).Perm (s.buffer ++ rs.map Read.line) :=
  answers_once ⟨h0, h⟩ s rs

namespace FindSample

/-- `p: <F-CONTENT>.+</F-CONTENT>` on the buffers that occur -/
def envTwice : FindEnv where
  failRegex := [rx [("fail\n", [("ip4", "A")])]]
  prefRegex := some (rx [("p: ok\n", [("content", "ok")]), ("ok\np: fail\n", [("content", "fail")]), ("p: fail\np: ok\n", [("content", "fail")])])
  maxLines := 2
  addr := fun t _ _ => some (ip t)
  textToIp := fun _ => []

/-- `start <HOST>\n<SKIPLINES>fail` on the buffers that occur -/
def envLines : FindEnv where
  failRegex := [fun t => if t = "start A\nother\nfail\n" then some { groups := gs [("ip4", "A")], first := 0, last := 3, skipped := ["other"] }
    else if t = "x\nother\nstart B\n" then none else none]
  maxLines := 3
  addr := fun t _ _ => some (ip t)
  textToIp := fun _ => []

/-- the same, with `ignoreregex` that matches the reported lines -/
def envLinesIgnored : FindEnv := { envLines with ignoreRegex := [rx [("start A\nfail\n", [])]] }

end FindSample

/-- With a prefix expression that selects the content, a failure is reported twice, first with the wrong line: the lines taken are those of the unprefixed
buffer (so `C59_once_partial` needs its first hypothesis). -/
theorem C59_refuted_prefix :
    tell envTwice [rd "p: ok", rd "p: fail", rd "p: ok"]
      = [some [], some [(0, ip "A", [⟨"", "", "ok"⟩])], some [(0, ip "A", [ln "p: fail"])]] := by
  decide +kernel

example : tell envLines [rd "start A", rd "other", rd "fail"] = [some [], some [], some [(0, ip "A", [ln "start A", ln "fail"])]]
    ∧ (runLines envLines {} [rd "start A", rd "other", rd "fail"]).buffer = [ln "other"] := by
  constructor <;> decide +kernel

example : tell envLinesIgnored [rd "start A", rd "other", rd "fail"] = [some [], some [], some []]
    ∧ (runLines envLinesIgnored {} [rd "start A", rd "other", rd "fail"]).buffer = [ln "other"] := by
  constructor <;> decide +kernel

end Verif
