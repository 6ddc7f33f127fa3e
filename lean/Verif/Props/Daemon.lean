import Verif.Spec.Daemon

/-! # C118: the server as a daemon -/

namespace Verif.Daemon

open DaemonSpec

/-! ## Numbers of descriptors -/

theorem lowestFrom_min (used : List Nat) : ∀ fuel n m, n ≤ m → m < lowestFrom used fuel n → m ∈ used := by
  intro fuel
  induction fuel with
  | zero => intro n m h1 h2; simp only [lowestFrom] at h2; omega
  | succ k ih =>
    intro n m h1 h2
    simp only [lowestFrom] at h2
    split at h2
    · by_cases e : m = n
      · subst e; assumption
      · exact ih (n + 1) m (by omega) h2
    · omega

theorem le_lowestFrom (used : List Nat) : ∀ fuel n, n ≤ lowestFrom used fuel n := by
  intro fuel
  induction fuel with
  | zero => intro n; exact Nat.le_refl n
  | succ k ih =>
    intro n
    simp only [lowestFrom]
    split
    · have := ih (n + 1); omega
    · exact Nat.le_refl n

/-- If the search ends at a used number then all of them are used -/
theorem lowestFrom_used (used : List Nat) : ∀ fuel n, lowestFrom used fuel n ∈ used → lowestFrom used fuel n = n + fuel := by
  intro fuel
  induction fuel with
  | zero => intro n _; rfl
  | succ k ih =>
    intro n h
    simp only [lowestFrom] at h ⊢
    split at h
    · rename_i hn; rw [if_pos hn, ih _ h]; omega
    · rename_i hn; exact absurd h hn

theorem length_le_of_subset {n : Nat} : ∀ {l : List Nat}, (∀ m < n, m ∈ l) → n ≤ l.length := by
  induction n with
  | zero => intro l _; exact Nat.zero_le _
  | succ n ih =>
    intro l h
    have h1 := ih (l := l.erase n) (fun m hm => (List.mem_erase_of_ne (by omega)).mpr (h m (by omega)))
    have h2 := List.length_erase_of_mem (h n (by omega))
    have h3 := List.length_pos_of_mem (h n (by omega))
    omega

/-- The lowest number is free, and all below are used -/
theorem lowest_spec (fds : List Fd) : lowest fds ∉ fds.map Fd.num ∧ ∀ m < lowest fds, m ∈ fds.map Fd.num := by
  have hm : ∀ m < lowest fds, m ∈ fds.map Fd.num := fun m h => lowestFrom_min _ _ 0 m (Nat.zero_le m) h
  refine ⟨fun h => ?_, hm⟩
  have e : lowest fds = 0 + fds.length := lowestFrom_used _ _ _ h
  have : lowest fds + 1 ≤ (fds.map Fd.num).length := by
    refine length_le_of_subset (fun m h' => ?_)
    by_cases e' : m = lowest fds
    · rw [e']; exact h
    · exact hm m (by omega)
  rw [List.length_map] at this
  omega

theorem lowest_eq {fds : List Fd} {n : Nat} (h1 : n ∉ fds.map Fd.num) (h2 : ∀ m < n, m ∈ fds.map Fd.num) : lowest fds = n := by
  obtain ⟨h3, h4⟩ := lowest_spec fds
  rcases Nat.lt_trichotomy (lowest fds) n with h | h | h
  · exact absurd (h2 _ h) h3
  · exact h
  · exact absurd (h4 _ h) h1

/-- Three files opened after 0, 1 and 2 were closed -/
theorem opened {p : Proc} (h : ∀ f ∈ p.fds, 3 ≤ f.num) :
    openNull true (openNull true (openNull false p)) = { p with fds := p.fds ++ [⟨0, .null false, false⟩, ⟨1, .null true, false⟩, ⟨2, .null true, false⟩] } := by
  have hn : ∀ k < 3, k ∉ p.fds.map Fd.num := by
    intro k hk hmem
    obtain ⟨f, hf, rfl⟩ := List.mem_map.mp hmem
    have := h f hf
    omega
  have e0 : lowest p.fds = 0 := lowest_eq (hn 0 (by omega)) (by intro m hm; omega)
  have e1 : lowest (p.fds ++ [⟨0, .null false, false⟩]) = 1 := by
    refine lowest_eq ?_ ?_
    · simp only [List.map_append, List.mem_append]
      rintro (h | h)
      · exact hn 1 (by omega) h
      · simp at h
    · intro m hm; have : m = 0 := by omega
      simp [this]
  have e2 : lowest (p.fds ++ [⟨0, .null false, false⟩] ++ [⟨1, .null true, false⟩]) = 2 := by
    refine lowest_eq ?_ ?_
    · simp only [List.map_append, List.mem_append]
      rintro ((h | h) | h)
      · exact hn 2 (by omega) h
      · simp at h
      · simp at h
    · intro m hm
      have : m = 0 ∨ m = 1 := by omega
      rcases this with rfl | rfl <;> simp
  simp only [openNull, e0, e1, e2]
  simp only [List.append_assoc, List.cons_append, List.nil_append]

/-! ## Closing -/

theorem foldl_close (l : List Nat) (p : Proc) : l.foldl (fun p n => close n p) p = { p with fds := p.fds.filter (fun f => f.num ∉ l) } := by
  induction l generalizing p with
  | nil =>
    have : p.fds.filter (fun f => f.num ∉ ([] : List Nat)) = p.fds := List.filter_eq_self.mpr (by simp)
    rw [this]
    rfl
  | cons n l ih =>
    rw [List.foldl_cons, ih]
    simp only [close, List.filter_filter]
    congr 1
    refine List.filter_congr (fun f _ => ?_)
    by_cases h1 : f.num = n <;> by_cases h2 : f.num ∈ l <;> simp [h1, h2] <;> simp_all

/-- Only descriptors are changed by closing -/
theorem closeAll_frame {env : Env} {p q : Proc} (h : closeAll env p = some q) : q = { p with fds := q.fds } ∧ ∀ f ∈ q.fds, f ∈ p.fds := by
  unfold closeAll at h
  split at h
  · cases h
    rw [foldl_close]
    exact ⟨rfl, fun f hf => (List.mem_filter.mp hf).1⟩
  · split at h
    · cases h; exact ⟨rfl, fun f hf => (List.mem_filter.mp hf).1⟩
    · cases h; exact ⟨rfl, fun f hf => (List.mem_filter.mp hf).1⟩
    · cases h

theorem closeAll_listed {env : Env} {p : Proc} (h : Listed env p) : closeAll env p = some { p with fds := [] } := by
  obtain ⟨he, l, hl, hall⟩ := h
  have hf : fdlist env = some (l.filterMap id) := by
    unfold fdlist
    have : (env.exists1 || env.exists2) = true := by simpa using he
    rw [if_pos this, hl]
    rfl
  unfold closeAll
  rw [hf]
  simp only [foldl_close, Option.some.injEq]
  congr 1
  rw [List.filter_eq_nil_iff]
  intro f hf'
  have := hall f hf'
  simp only [decide_not, Bool.not_eq_true', decide_eq_false_iff_not, Classical.not_not]
  exact List.mem_filterMap.mpr ⟨some f.num, this, rfl⟩

/-! ## C118 -/

theorem servers_nil : servers [] = [] := rfl
theorem servers_cons (x : Proc × End) (l : List (Proc × End)) : servers (x :: l) = (if x.2 = .serves then [x.1] else []) ++ servers l := by
  unfold servers
  by_cases h : x.2 = .serves <;> simp [h]

/-- What is after `start` in the background -/
theorem start_background (env : Env) (p : Proc) : start env true p = createDaemon env { p with umask := 0o077 } := rfl

/-- In the background one process serves if both forks succeed, files could be closed and `/dev/null` is there, and none otherwise -/
theorem C118_one (env : Env) (p : Proc) : (Possible env → ∃ d, servers (start env true p) = [d]) ∧ (¬Possible env → servers (start env true p) = []) := by
  have hfd : (fdlist env).isSome = true ↔ (env.exists1 = true ∨ env.exists2 = true) ∧ env.listing.isSome = true := by
    unfold fdlist
    by_cases h : env.exists1 = true ∨ env.exists2 = true
    · have : (env.exists1 || env.exists2) = true := by simpa using h
      rw [if_pos this]; simp [h]
    · have : ¬(env.exists1 || env.exists2) = true := by simpa using h
      rw [if_neg this]; simp [h]
  have hclose : ∀ q, (closeAll env q).isSome = true ↔ (fdlist env).isSome = true ∨ env.maxfd ≠ .raises := by
    intro q
    unfold closeAll
    cases fdlist env with
    | some l => simp
    | none => cases env.maxfd <;> simp
  rw [start_background]
  unfold createDaemon
  cases h1 : env.fork1 with
  | error e => exact ⟨fun h => (by obtain ⟨a, ha⟩ := h.first; rw [h1] at ha; cases ha), fun _ => rfl⟩
  | ok a =>
    simp only
    cases h2 : env.fork2 with
    | error e => exact ⟨fun h => (by obtain ⟨b, hb⟩ := h.second; rw [h2] at hb; cases hb), fun _ => rfl⟩
    | ok b =>
      simp only [servers_cons, servers_nil, reduceCtorEq, if_false, List.nil_append, List.append_nil]
      unfold daemon
      split
      · rename_i hc
        have hn : ¬((fdlist env).isSome = true ∨ env.maxfd ≠ .raises) := by rw [← hclose, hc]; simp
        rw [hfd] at hn
        exact ⟨fun h => absurd h.close hn, fun _ => rfl⟩
      · rename_i q hc
        have hy : (fdlist env).isSome = true ∨ env.maxfd ≠ .raises := by rw [← hclose, hc]; rfl
        rw [hfd] at hy
        cases hn : env.hasNull with
        | false => exact ⟨fun h => (by have := h.null; rw [hn] at this; cases this), fun _ => rfl⟩
        | true => exact ⟨fun _ => ⟨_, rfl⟩, fun h => absurd ⟨⟨a, h1⟩, ⟨b, h2⟩, hn, hy⟩ h⟩

/-- The process of the server, if there is one -/
theorem server_of {env : Env} {p d : Proc} (h : d ∈ servers (start env true p)) : ∃ a b q, env.fork1 = .ok a ∧ env.fork2 = .ok b ∧ env.hasNull = true ∧
    closeAll env { id := b, session := a, terminal := false, root := true, hup := true, umask := 0o077, fds := p.fds } = some q ∧
    d = openNull true (openNull true (openNull false q)) := by
  rw [start_background] at h
  unfold createDaemon at h
  cases h1 : env.fork1 with
  | error e => simp [h1, servers_cons, servers_nil] at h
  | ok a =>
    simp only [h1] at h
    cases h2 : env.fork2 with
    | error e => simp [h2, servers_cons, servers_nil] at h
    | ok b =>
      simp only [h2, servers_cons, servers_nil, reduceCtorEq, if_false, List.nil_append, List.append_nil] at h
      unfold daemon at h
      split at h
      · simp at h
      · rename_i q hc
        cases hn : env.hasNull with
        | false => simp [hn] at h
        | true =>
          simp [hn] at h
          exact ⟨a, b, q, rfl, rfl, rfl, hc, h⟩

/-- It is detached from the process that started it, and from any terminal -/
theorem C118_detached {env : Env} {p d : Proc} (hf : Fresh env p) (h : d ∈ servers (start env true p)) : Detached d p := by
  obtain ⟨a, b, q, h1, h2, -, hc, rfl⟩ := server_of h
  obtain ⟨hq, -⟩ := closeAll_frame hc
  obtain ⟨ha, has⟩ := hf.first a h1
  obtain ⟨hb, hba⟩ := hf.second a b h1 h2
  rw [hq]
  exact ⟨hb, has, fun e => hba e.symm, rfl, rfl, rfl, rfl⟩

/-- If open files can be listed, it has no other than standard input, output and error, which are `/dev/null` -/
theorem C118_files {env : Env} {p d : Proc} (hl : Listed env p) (h : d ∈ servers (start env true p)) :
    d.fds = [⟨0, .null false, false⟩, ⟨1, .null true, false⟩, ⟨2, .null true, false⟩] := by
  obtain ⟨a, b, q, h1, h2, -, hc, rfl⟩ := server_of h
  rw [closeAll_listed (by exact hl)] at hc
  cases hc
  rw [opened (by simp)]
  rfl

/-- Else those below the limit are closed -/
theorem C118_range {env : Env} {p d : Proc} {max : Int} (hn : (env.exists1 = false ∧ env.exists2 = false) ∨ env.listing = none)
    (hm : env.maxfd = .value max ∨ (env.maxfd = .unknown ∧ max = 256)) (h3 : 3 ≤ max) (h : d ∈ servers (start env true p)) :
    Silent d.fds ∧ ∀ f ∈ d.fds, 3 ≤ f.num → f ∈ p.fds ∧ max ≤ f.num := by
  obtain ⟨a, b, q, h1, h2, -, hc, rfl⟩ := server_of h
  have hf : fdlist env = none := by
    unfold fdlist
    rcases hn with ⟨e1, e2⟩ | e
    · simp [e1, e2]
    · simp [e]
  have hq : q.fds = p.fds.filter (fun f => ¬((f.num : Int) < max)) := by
    unfold closeAll at hc
    rw [hf] at hc
    rcases hm with e | ⟨e, rfl⟩ <;> simp only [e] at hc <;> cases hc <;> rfl
  have hge : ∀ f ∈ q.fds, max ≤ (f.num : Int) := by
    intro f hf
    rw [hq] at hf
    have := (List.mem_filter.mp hf).2
    simpa using this
  rw [opened (fun f hf => by have := hge f hf; omega)]
  refine ⟨⟨by simp, by simp, by simp⟩, fun f hf hk => ?_⟩
  simp only [List.mem_append, List.mem_cons, List.not_mem_nil, or_false] at hf
  rcases hf with hf | rfl | rfl | rfl
  · refine ⟨?_, hge f hf⟩
    rw [hq] at hf
    exact (List.mem_filter.mp hf).1
  · simp at hk
  · simp at hk
  · simp at hk

/-- The process that called it is the first one and goes on with its files, terminal and directory; it never serves -/
theorem C118_caller (env : Env) (p : Proc) : (start env true p).head? = some ({ p with hup := true, umask := 0o077 }, match env.fork1 with
    | .error e => .error e
    | .ok _ => .returns) := by
  rw [start_background]
  unfold createDaemon
  cases env.fork1 with
  | error e => rfl
  | ok a =>
    simp only
    cases env.fork2 <;> rfl

/-- The other ones -/
theorem C118_children (env : Env) (p : Proc) : (∀ e, env.fork1 = .error e → (start env true p).tail = []) ∧
    (∀ a e, env.fork1 = .ok a → env.fork2 = .error e → (start env true p).tail.map Prod.snd = [.error e]) ∧
    (∀ a b, env.fork1 = .ok a → env.fork2 = .ok b → ∃ x, (start env true p).tail.map Prod.snd = [.exits, x] ∧ (x = .serves ∨ x = .raises)) := by
  refine ⟨?_, ?_, ?_⟩
  · intro e h; rw [start_background]; unfold createDaemon; simp [h]
  · intro a e h1 h2; rw [start_background]; unfold createDaemon; simp [h1, h2]
  · intro a b h1 h2
    rw [start_background]; unfold createDaemon
    simp only [h1, h2, List.tail_cons, List.map_cons, List.map_nil]
    refine ⟨_, rfl, ?_⟩
    unfold daemon
    split
    · exact .inr rfl
    · split
      · exact .inl rfl
      · exact .inr rfl

/-- In the foreground the process itself serves, only its mask for files is set -/
theorem C118_foreground (env : Env) (p : Proc) : start env false p = [({ p with umask := 0o077 }, .serves)] := rfl

/-- Commands of actions have pipes as output and error, and no other descriptor of the server than standard input if this is inherited -/
theorem C118_command (p : Proc) : (∀ f ∈ command p, f = ⟨1, .pipe, true⟩ ∨ f = ⟨2, .pipe, true⟩ ∨ (f ∈ p.fds ∧ f.num = 0 ∧ f.inherit = true)) ∧
    (∀ f ∈ p.fds, f.num = 0 → f.inherit = true → f ∈ command p) ∧ ⟨1, .pipe, true⟩ ∈ command p ∧ ⟨2, .pipe, true⟩ ∈ command p := by
  unfold command
  refine ⟨?_, ?_, by simp, by simp⟩
  · intro f hf
    simp only [List.mem_append, List.mem_filter, List.mem_cons, List.not_mem_nil, or_false, Bool.and_eq_true, decide_eq_true_eq] at hf
    rcases hf with ⟨h1, h2, h3⟩ | h | h
    · exact .inr (.inr ⟨h1, h2, h3⟩)
    · exact .inl h
    · exact .inr (.inl h)
  · intro f hf h0 hi
    simp [hf, h0, hi]

/-- In the background commands of actions have no standard input: 0 was opened by Python and is closed when a command is started -/
theorem C118_stdin {env : Env} {p d : Proc} (hl : Listed env p) (h : d ∈ servers (start env true p)) : command d = [⟨1, .pipe, true⟩, ⟨2, .pipe, true⟩] := by
  unfold command
  rw [C118_files hl h]
  rfl

/-! ## Examples -/

namespace Example

/-- A shell with a terminal starts it, with a file that is open -/
def shell : Proc := { id := 100, session := 90, terminal := true, root := false, hup := false, umask := 0o022,
                      fds := [⟨0, .other 0, true⟩, ⟨1, .other 0, true⟩, ⟨2, .other 0, true⟩, ⟨7, .other 1, false⟩] }

def linux : Env := { fork1 := .ok 101, fork2 := .ok 102, exists1 := true, exists2 := false, listing := some [some 0, some 1, none, some 2, some 3, some 7], maxfd := .value 1024, hasNull := true }

example : start linux true shell =
    [({ shell with hup := true, umask := 0o077 }, .returns), ({ shell with id := 101, session := 101, terminal := false, hup := true, umask := 0o077 }, .exits),
     ({ id := 102, session := 101, terminal := false, root := true, hup := true, umask := 0o077,
        fds := [⟨0, .null false, false⟩, ⟨1, .null true, false⟩, ⟨2, .null true, false⟩] }, .serves)] := by decide

/-- No list of files: those above the limit stay -/
example : (servers (start { linux with exists1 := false, maxfd := .value 5 } true shell)).map Proc.fds =
    [[⟨7, .other 1, false⟩, ⟨0, .null false, false⟩, ⟨1, .null true, false⟩, ⟨2, .null true, false⟩]] ∧
    (servers (start { linux with listing := none, maxfd := .unknown } true shell)).map Proc.fds = [[⟨0, .null false, false⟩, ⟨1, .null true, false⟩, ⟨2, .null true, false⟩]] ∧
    (servers (start { linux with exists1 := false, exists2 := true, maxfd := .raises } true shell)).map Proc.fds = [[⟨0, .null false, false⟩, ⟨1, .null true, false⟩, ⟨2, .null true, false⟩]] := by
  decide

/-- Errors -/
example : (start { linux with fork1 := .error 11 } true shell).map Prod.snd = [.error 11] ∧ (start { linux with hasNull := false } true shell).map Prod.snd = [.returns, .exits, .raises] ∧
    (start { linux with listing := none, maxfd := .raises } true shell).map Prod.snd = [.returns, .exits, .raises] := by decide

/-- Commands of a server in the foreground have its standard input -/
example : command shell = [⟨0, .other 0, true⟩, ⟨1, .pipe, true⟩, ⟨2, .pipe, true⟩] ∧ command { shell with fds := [⟨0, .other 0, false⟩, ⟨3, .other 1, true⟩] } = [⟨1, .pipe, true⟩, ⟨2, .pipe, true⟩] := by
  decide

example : lowest [⟨0, .pipe, true⟩, ⟨1, .pipe, true⟩, ⟨3, .pipe, true⟩] = 2 ∧ lowest [⟨1, .pipe, true⟩] = 0 ∧ lowest [⟨1, .pipe, true⟩, ⟨0, .pipe, true⟩] = 2 := by decide

end Example

open Example in
/-- If the limit is not known to be a positive number (-1 for none), nothing is closed: the daemon keeps terminal and files of the caller -/
theorem C118_refuted_unlimited : (servers (start { linux with listing := none, maxfd := .value (-1) } true shell)).map Proc.fds =
    [shell.fds ++ [⟨3, .null false, false⟩, ⟨4, .null true, false⟩, ⟨5, .null true, false⟩]] := by
  decide

open Example in
/-- If the second fork fails no server runs, but for the caller it is the same as if one did; the child raises the error -/
theorem C118_refuted_fork : (start { linux with fork2 := .error 11 } true shell).head? = (start linux true shell).head? ∧ servers (start { linux with fork2 := .error 11 } true shell) = [] := by
  decide

end Verif.Daemon
