import Verif.Lemmas.FileSet
import Verif.Lemmas.NetLibSample
import Verif.Props.IPAddr
import Verif.Model.Ignore

set_option linter.unusedSimpArgs false

/-!
# C92 — ignored addresses from a file follow the file
-/

namespace Verif

open Verif.FileSet Verif.FileSetSpec Verif.FileSetLemmas

theorem mapM_mem (f : Str → Option IPAddr) : ∀ (ws : List Str) (l : List IPAddr), ws.mapM f = some l → ∀ n, n ∈ l ↔ ∃ w ∈ ws, f w = some n
  | [], l, h, n => by simp at h; subst h; simp
  | w :: ws, l, h, n => by
    rw [List.mapM_cons] at h
    cases hw : f w with
    | none => rw [hw] at h; cases h
    | some m =>
      cases hs : ws.mapM f with
      | none => rw [hw, hs] at h; cases h
      | some l' =>
        rw [hw, hs] at h
        injection h with h
        subst h
        have ih := mapM_mem f ws l' hs n
        simp only [List.mem_cons, ih]
        constructor
        · rintro (rfl | ⟨w', h1, h2⟩)
          · exact ⟨w, Or.inl rfl, hw⟩
          · exact ⟨w', Or.inr h1, h2⟩
        · rintro ⟨w', rfl | h1, h2⟩
          · rw [hw] at h2; injection h2 with h2; exact Or.inl h2.symm
          · exact Or.inr ⟨w', h1, h2⟩

/-- The entries of a file are the words of its lines, separated by white space and commas, without comments; an address is in the set exactly if an entry is or contains it. -/
theorem C92_entries (lib : NetLib) (resolve : Str → List IPAddr) (text : Str) (ips : IPAddrSet) (h : parse lib text = some ips) :
    ∃ ws, Entries text ws ∧ ∀ x : IPAddr, x.isSingle = true → (ips.mem lib resolve x = true ↔ ∃ w ∈ ws, ∃ n, IPAddr.new lib w = some n ∧ n.contains resolve x = true) := by
  refine ⟨entries text, entries_words text, fun x hx => ?_⟩
  unfold parse at h
  cases hm : (entries text).mapM fun w => IPAddr.new lib w with
  | none => rw [hm] at h; cases h
  | some l =>
    rw [hm] at h
    injection h with h
    subst h
    have hc := C30_set lib resolve l [] x hx
    rw [List.append_nil, List.foldl_nil] at hc
    rw [hc]
    have := mapM_mem (fun w => IPAddr.new lib w) _ l hm
    constructor
    · rintro ⟨n, hn, h1⟩
      obtain ⟨w, hw, h2⟩ := (this n).mp hn
      exact ⟨w, hw, n, h2, h1⟩
    · rintro ⟨w, hw, n, h2, h1⟩
      exact ⟨n, (this n).mpr ⟨w, hw, h2⟩, h1⟩

/-- The answer is that of the file if the file has been as it is for `1` second — for 61 seconds if it was missing at times. -/
theorem C92_followed (lib : NetLib) (file : Int → FileState) (hh : Honest file) (hr : Readable lib file) (cs : List (Int × Int)) (c : Int × Int) (from_ : Int) (ho : InOrder from_ (cs ++ [c]))
    (wait : Int) (hw : 61000000 ≤ wait ∨ (1000000 ≤ wait ∧ ∀ t, (file t).stat ≠ none)) (f : FileState) (hex : f.stat ≠ none) (hf : ∀ t, c.1 - wait ≤ t → t ≤ c.2 → file t = f) :
    ∃ text ips, f.text = some text ∧ parse lib text = some ips ∧ ((cs ++ [c]).foldl (ask lib file) {}).set = ips := by
  obtain ⟨h1, h2, h3⟩ := inOrder_append cs from_ c ho
  obtain ⟨now, hi, _, hn⟩ := inv_run hh hr cs from_ {} (inv_init lib file from_) h1
  have hn := hn c ho
  rw [List.foldl_append, List.foldl_cons, List.foldl_nil]
  generalize cs.foldl (ask lib file) {} = s at hi
  have e1 : latency = 1000000 := rfl
  have e2 : second = 1000000 := rfl
  have hwp : 0 ≤ wait := by omega
  have hfc : file c.1 = f := hf c.1 (by omega) h3
  have hfr : file c.2 = f := hf c.2 (by omega) (Int.le_refl _)
  obtain ⟨text, ips, ht, hp⟩ := hr c.1 (by rw [hfc]; exact hex)
  rw [hfc] at ht
  refine ⟨text, ips, ht, hp, ?_⟩
  have hb : f.text.bind (parse lib) = some ips := by rw [ht]; exact hp
  have key : ∀ set, f.text.bind (parse lib) = some set → set = ips := fun set h => by rw [hb] at h; injection h with h; exact h.symm
  unfold ask load isModified
  by_cases hq : c.1 ≤ s.nextCheck
  · simp only [hq, if_true, Bool.false_eq_true, if_false]
    rcases hi.next with h5 | ⟨t, u, h6, h7, h8⟩
    · omega
    · rcases h8 with ⟨h8, h9⟩ | ⟨h8, h9⟩
      · have : file u = f := hf u (by omega) (by omega)
        rw [this] at h9
        exact key _ h9
      · exfalso
        rcases hw with hw | ⟨_, hw⟩
        · have : file u = f := hf u (by omega) (by omega)
          rw [this] at h9
          exact hex h9
        · exact hw u h9
  · simp only [hq, if_false, hfc, hfr]
    cases hs : f.stat with
    | none => exact (hex hs).elim
    | some st =>
      dsimp only
      by_cases he : s.stats = some st
      · simp only [he, if_true, Bool.false_eq_true, if_false]
        have := same_set hi hh c.1 hn st he (by rw [hfc]; exact hs)
        rw [hfc] at this
        exact key _ this
      · simp only [he, if_false, if_true, take, hb]

/-- Whatever happens to the file, the set is that of some text that was read in full, or still the one before. -/
theorem C92_kept (lib : NetLib) (now : Int) (stat : Option Stat) (text : Option Str) (s : FileSet) :
    (load lib now stat text s).set = s.set ∨ ∃ t, text = some t ∧ parse lib t = some (load lib now stat text s).set := by
  unfold load isModified
  by_cases h : now ≤ s.nextCheck
  · simp [h]
  · simp only [h, if_false]
    cases stat with
    | none => simp [failed]
    | some st =>
      dsimp only
      by_cases he : s.stats = some st
      · simp [he]
      · simp only [he, if_false, if_true, take]
        cases hb : text.bind (parse lib) with
        | none => simp [failed]
        | some ips =>
          right
          cases text with
          | none => cases hb
          | some t => exact ⟨t, rfl, hb⟩

/-- A missing or unreadable file, or one with an entry that is refused, leaves the set as it was. -/
theorem C92_failure (lib : NetLib) (now : Int) (stat : Option Stat) (text : Option Str) (s : FileSet) (h : stat = none ∨ text.bind (parse lib) = none) : (load lib now stat text s).set = s.set := by
  rcases C92_kept lib now stat text s with h1 | ⟨t, h1, h2⟩
  · exact h1
  · rcases h with h | h
    · subst h
      unfold load isModified
      by_cases hn : now ≤ s.nextCheck <;> simp [hn, failed]
    · rw [h1, Option.bind_some, h2] at h; cases h

/-- The file is looked at not more than once a second, after a failure once in 61 seconds; else the answer needs no file. -/
theorem C92_seldom (lib : NetLib) (now : Int) (stat : Option Stat) (text : Option Str) (s : FileSet) :
    (now ≤ s.nextCheck → ∀ stat' text', load lib now stat' text' s = s) ∧
    (s.nextCheck < now → (load lib now stat text s).nextCheck = now + (if stat = none ∨ (s.stats ≠ stat ∧ text.bind (parse lib) = none) then 61000000 else 1000000)) := by
  constructor
  · intro h stat' text'
    simp [load, isModified, h]
  · intro h
    have hn : ¬ now ≤ s.nextCheck := by omega
    unfold load isModified
    simp only [hn, if_false]
    cases stat with
    | none => simp only [failed, latency, second]; simp; omega
    | some st =>
      dsimp only
      by_cases he : s.stats = some st
      · simp [he, latency, second]
      · simp only [he, if_false, if_true, take]
        cases hb : text.bind (parse lib) with
        | none => simp only [failed, latency, second, he]; simp [he]; omega
        | some ips => simp [latency, second]

/-- **Not so** for a file that could not be read once (e. g. because of its permissions): when it can be read, and `stat` is the same, it is not read. However long one waits, nobody is ignored. -/
theorem C92_refuted_unreadable (lib : NetLib) (resolve : Str → List IPAddr) (st : Stat) (file : Int → FileState) (hst : ∀ t, (file t).stat = some st) (first : Int × Int) (h0 : 0 < first.1)
    (hun : (file first.2).text = none) (cs : List (Int × Int)) (x : IPAddr) : contains lib resolve ((first :: cs).foldl (ask lib file) {}) x = false := by
  have hstep : ∀ s : FileSet, s.stats = some st → s.set = ⟨[], false⟩ → ∀ c, (ask lib file s c).stats = some st ∧ (ask lib file s c).set = ⟨[], false⟩ := by
    intro s h1 h2 c
    unfold ask load isModified
    rw [hst]
    by_cases hn : c.1 ≤ s.nextCheck <;> simp [hn, h1, h2]
  have hrun : ∀ (cs : List (Int × Int)) (s : FileSet), s.stats = some st → s.set = ⟨[], false⟩ → (cs.foldl (ask lib file) s).set = ⟨[], false⟩ := by
    intro cs
    induction cs with
    | nil => intro s _ h; exact h
    | cons c cs ih =>
      intro s h1 h2
      rw [List.foldl_cons]
      obtain ⟨h3, h4⟩ := hstep s h1 h2 c
      exact ih _ h3 h4
  have hn : ¬ first.1 ≤ 0 := by omega
  have h1 : (ask lib file {} first).stats = some st ∧ (ask lib file {} first).set = ⟨[], false⟩ := by
    unfold ask load isModified
    rw [hst, hun]
    simp [hn, take, failed]
  rw [List.foldl_cons]
  unfold contains
  rw [hrun cs _ h1.1 h1.2]
  rfl

/-- **Not so** with two jails: while the thread of one reads the file (for the first time, or again), the other one gets its answer from an empty set, although the address has been in the file all the time. -/
theorem C92_refuted_shared (lib : NetLib) (resolve : Str → List IPAddr) (s : FileSet) (t1 t2 : Int) (st : Stat) (x : IPAddr) (h1 : s.nextCheck < t1) (hs : s.stats ≠ some st)
    (h2 : t2 ≤ t1 + 1000000) (stat : Option Stat) :
    let other := [Step.look t1 (some st), .clear].foldl step s
    (isModified t1 (some st) s).1 = true ∧ (isModified t2 stat other).1 = false ∧ contains lib resolve (isModified t2 stat other).2 x = false ∧
      ∀ ips, contains lib resolve (step other (.fill ips)) x = ips.mem lib resolve x := by
  have hn : ¬ t1 ≤ s.nextCheck := by omega
  have e : [Step.look t1 (some st), .clear].foldl step s = { nextCheck := t1 + latency, stats := some st, set := { s.set with ips := [] } } := by
    simp [step, isModified, hn, hs]
  dsimp only
  rw [e]
  have hl : t2 ≤ t1 + latency := h2
  refine ⟨by simp [isModified, hn, hs], by simp [isModified, hl], ?_, fun ips => rfl⟩
  simp [isModified, hl, contains, IPAddrSet.mem]

/-- One thread alone: the steps are those of `load`. -/
theorem C92_alone (lib : NetLib) (now : Int) (stat : Option Stat) (text : Str) (ips : IPAddrSet) (s : FileSet) (hp : parse lib text = some ips) :
    load lib now stat (some text) s = (if (isModified now stat s).1 then [Step.look now stat, .clear, .fill ips] else [Step.look now stat]).foldl step s := by
  unfold load
  by_cases h : (isModified now stat s).1 = true
  · simp only [h, if_true]; simp [take, hp, step]
  · simp only [h, if_false, Bool.false_eq_true]; simp [step]

/-- The name of the file: an absolute path needs two slashes before it; with fewer, the path is relative (to wherever the server runs). -/
theorem C92_refuted_path (p : Str) (h : p.head? ≠ some '/') : Ignore.fileName ("file:///".toList ++ p) = some ('/' :: p) ∧ Ignore.fileName ("file:/".toList ++ p) = some p ∧
    Ignore.fileName ("file://".toList ++ p) = some p := by
  cases p with
  | nil => exact ⟨rfl, rfl, rfl⟩
  | cons c p =>
    have hc : c ≠ '/' := fun e => h (by simp [e])
    refine ⟨rfl, ?_, rfl⟩
    have : "file:/".toList ++ c :: p = 'f' :: 'i' :: 'l' :: 'e' :: ':' :: '/' :: c :: p := rfl
    rw [this]
    unfold Ignore.fileName
    split
    · rename_i heq; simp at heq; exact (hc heq.1).elim
    · rename_i heq; simp at heq; simp [heq]
    · rename_i h1 h2 heq; simp at heq; subst heq; exact (h2 _ rfl).elim
    · rename_i h3; exact (h3 _ rfl).elim

/-- example: entries and comments -/
example : entries "192.0.2.1, 192.0.2.2 # office\n; old\n#\n  10.0.0.0/8;x\n\t;\n::1".toList = ["192.0.2.1", "192.0.2.2", "10.0.0.0/8;x", "::1"].map String.toList := by decide +kernel

/-- example: a file is changed after 100 seconds; the new entry counts one second later -/
example :
    let file : Int → FileState := fun t => if t < 100000000 then ⟨some ⟨1, 7, 10⟩, some "192.0.2.1".toList⟩ else ⟨some ⟨2, 7, 20⟩, some "192.0.2.2".toList⟩
    let x : IPAddr := (IPAddr.new IPAddr.Sample.lib "192.0.2.2".toList).getD (IPAddr.init IPAddr.Sample.lib [] .unspec)
    let asked := fun cs => contains IPAddr.Sample.lib (fun _ => []) ((cs : List (Int × Int)).foldl (ask IPAddr.Sample.lib file) {}) x
    asked [(5, 6), (99900000, 99900000)] = false ∧ asked [(5, 6), (99900000, 99900000), (100500000, 100500000)] = false ∧
      asked [(5, 6), (99900000, 99900000), (100500000, 100500000), (101000000, 101000000)] = true := by decide +kernel

end Verif
