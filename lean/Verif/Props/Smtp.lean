import Verif.Spec.Smtp
import Verif.Lemmas.IPAddr

/-! # C115: mails about bans -/

namespace Verif.Smtp

open Verif Verif.IPAddr Verif.SmtpSpec

theorem decInt_eq (i : Int) : decInt i = shown (.int i) := by
  cases i with
  | ofNat n => show Nat.toDigits 10 n = (toString (Int.ofNat n)).toList; simp [toString, Int.repr, Nat.repr]
  | negSucc n => show '-' :: Nat.toDigits 10 (n + 1) = (toString (Int.negSucc n)).toList; simp [toString, Int.repr, Nat.repr]

theorem fmt_char (v : Str → Option Val) {c : Char} (h : c ≠ '%') (l : Str) : fmt v .lit (c :: l) = (fmt v .lit l).map (c :: ·) := by
  rw [fmt.eq_def]
  split <;> simp_all

theorem fmt_lit (v : Str → Option Val) {s : Str} (h : '%' ∉ s) (r : Str) : fmt v .lit (s ++ r) = (fmt v .lit r).map (s ++ ·) := by
  induction s with
  | nil => simp
  | cons c s ih =>
    rw [List.cons_append, fmt_char v (fun e => h (by rw [e]; exact List.mem_cons_self ..)), ih (fun e => h (List.mem_cons_of_mem _ e))]
    cases fmt v .lit r <;> rfl

theorem fmt_name (v : Str → Option Val) {n : Str} (h : ')' ∉ n) (acc r : Str) : fmt v (.name acc) (n ++ ')' :: r) = fmt v (.conv (acc.reverse ++ n)) r := by
  induction n generalizing acc with
  | nil => simp [fmt]
  | cons c n ih =>
    have hc : c ≠ ')' := fun e => h (by rw [e]; exact List.mem_cons_self ..)
    have : fmt v (.name acc) (c :: (n ++ ')' :: r)) = fmt v (.name (c :: acc)) (n ++ ')' :: r) := by
      rw [fmt.eq_def]
      split <;> simp_all
    rw [List.cons_append, this, ih (fun e => h (List.mem_cons_of_mem _ e))]
    simp

theorem fmt_open (v : Str → Option Val) (l : Str) : fmt v .lit ('%' :: '(' :: l) = fmt v (.name []) l := rfl

theorem fmt_str (v : Str → Option Val) {n : Str} (h : ')' ∉ n) (r : Str) :
    fmt v .lit (Piece.source (.str n) ++ r) = (v n).bind (fun x => (fmt v .lit r).map (shown x ++ ·)) := by
  show fmt v .lit ('%' :: '(' :: (n ++ [')', 's'] ++ r)) = _
  rw [fmt_open, List.append_assoc, show [')', 's'] ++ r = ')' :: 's' :: r from rfl, fmt_name v h]
  show (match v n with
    | some (.text s) => (fmt v .lit r).map (s ++ ·)
    | some (.int i) => (fmt v .lit r).map (decInt i ++ ·)
    | none => none) = _
  cases v n with
  | none => rfl
  | some x => cases x with
    | text s => rfl
    | int i => show (fmt v .lit r).map (decInt i ++ ·) = _; rw [decInt_eq]; rfl

theorem fmt_num (v : Str → Option Val) {n : Str} (h : ')' ∉ n) (r : Str) (i : Int) (hv : v n = some (.int i)) :
    fmt v .lit (Piece.source (.num n) ++ r) = (fmt v .lit r).map (shown (.int i) ++ ·) := by
  show fmt v .lit ('%' :: '(' :: (n ++ [')', 'i'] ++ r)) = _
  rw [fmt_open, List.append_assoc, show [')', 'i'] ++ r = ')' :: 'i' :: r from rfl, fmt_name v h]
  show (match v n with
    | some (.int i) => (fmt v .lit r).map (decInt i ++ ·)
    | _ => none) = _
  rw [hv]
  show (fmt v .lit r).map (decInt i ++ ·) = _
  rw [decInt_eq]

theorem fmt_num_none (v : Str → Option Val) {n : Str} (h : ')' ∉ n) (r : Str) (hv : ∀ i, v n ≠ some (.int i)) :
    fmt v .lit (Piece.source (.num n) ++ r) = none := by
  show fmt v .lit ('%' :: '(' :: (n ++ [')', 'i'] ++ r)) = _
  rw [fmt_open, List.append_assoc, show [')', 'i'] ++ r = ')' :: 'i' :: r from rfl, fmt_name v h]
  show (match v n with
    | some (.int i) => (fmt v .lit r).map (decInt i ++ ·)
    | _ => none) = _
  split
  · rename_i i e; exact absurd e (hv i)
  · rfl

/-- A text with values in it is made of the text and the values as they are: a value with percent signs or brackets is not looked into.
It is made exactly if all values are there (and numbers where numbers are asked for). -/
theorem C115_format (v : Str → Option Val) (ps : List Piece) (h : ∀ p ∈ ps, p.Ok) (t : Str) :
    fmt v .lit (ps.flatMap Piece.source) = some t ↔ Filled v ps t := by
  induction ps generalizing t with
  | nil =>
    constructor
    · intro e
      have : t = [] := by simpa [fmt] using e.symm
      subst this; exact .nil
    · intro e; cases e; rfl
  | cons p ps ih =>
    have ih := ih (fun q hq => h q (List.mem_cons_of_mem _ hq))
    have hp := h p (List.mem_cons_self ..)
    rw [List.flatMap_cons]
    cases p with
    | lit s =>
      rw [show Piece.source (.lit s) = s from rfl, fmt_lit v hp, Option.map_eq_some_iff]
      constructor
      · rintro ⟨a, ha, rfl⟩; exact .cons (.lit s) ((ih a).mp ha)
      · intro e
        cases e with
        | cons e1 e2 => cases e1; exact ⟨_, (ih _).mpr e2, rfl⟩
    | str n =>
      rw [fmt_str v hp, Option.bind_eq_some_iff]
      constructor
      · rintro ⟨x, hx, e⟩
        obtain ⟨a, ha, rfl⟩ := Option.map_eq_some_iff.mp e
        exact .cons (.str n x hx) ((ih a).mp ha)
      · intro e
        cases e with
        | cons e1 e2 => cases e1 with
          | str _ x hx => exact ⟨x, hx, Option.map_eq_some_iff.mpr ⟨_, (ih _).mpr e2, rfl⟩⟩
    | num n =>
      by_cases hv : ∃ i, v n = some (.int i)
      · obtain ⟨i, hi⟩ := hv
        rw [fmt_num v hp _ i hi, Option.map_eq_some_iff]
        constructor
        · rintro ⟨a, ha, rfl⟩; exact .cons (.num n i hi) ((ih a).mp ha)
        · intro e
          cases e with
          | cons e1 e2 => cases e1 with
            | num _ j hj =>
              rw [hi] at hj; cases hj
              exact ⟨_, (ih _).mpr e2, rfl⟩
      · rw [fmt_num_none v hp _ (fun i e => hv ⟨i, e⟩)]
        constructor
        · intro e; cases e
        · intro e
          cases e with
          | cons e1 e2 => cases e1 with
            | num _ j hj => exact absurd ⟨j, hj⟩ hv

/-! ## Recipients -/

theorem recipients_sep (l : Str) : recipients (',' :: ' ' :: l) = [] :: recipients l := rfl

theorem recipients_ne (s : Str) : recipients s ≠ [] := by
  rw [recipients.eq_def]
  split
  · simp
  · simp
  · split <;> simp

theorem intercalate_cons (a : Str) (r : List Str) (h : r ≠ []) : [',', ' '].intercalate (a :: r) = a ++ [',', ' '] ++ [',', ' '].intercalate r := by
  cases r with
  | nil => exact absurd rfl h
  | cons b r => simp [List.intercalate, List.intersperse]

theorem intercalate_one (a : Str) : [',', ' '].intercalate [a] = a := by simp [List.intercalate]

theorem prefix_intercalate (a : Str) (r : List Str) : a <+: [',', ' '].intercalate (a :: r) := by
  cases r with
  | nil => rw [intercalate_one]; exact List.prefix_rfl
  | cons b r => rw [intercalate_cons _ _ (by simp), List.append_assoc]; exact List.prefix_append ..

/-- Recipients are the parts between `, `: together they are the setting again, and none of them contains the separator. -/
theorem C115_recipients (s : Str) : [',', ' '].intercalate (recipients s) = s ∧ ∀ r ∈ recipients s, ¬ [',', ' '] <:+: r := by
  induction s using recipients.induct with
  | case1 => 
    refine ⟨rfl, ?_⟩
    intro r hr
    rw [show recipients [] = [[]] from rfl, List.mem_singleton] at hr
    subst hr
    intro h; exact absurd (List.infix_nil.mp h) (by simp)
  | case2 l ih =>
    rw [recipients_sep]
    refine ⟨?_, ?_⟩
    · rw [intercalate_cons _ _ (recipients_ne l), ih.1]; rfl
    · intro r hr
      rcases List.mem_cons.mp hr with rfl | hr
      · intro h; exact absurd (List.infix_nil.mp h) (by simp)
      · exact ih.2 r hr
  | case3 c l hns hn ih => exact absurd hn (recipients_ne l)
  | case4 c l hns a r hr ih =>
    have e : recipients (c :: l) = (c :: a) :: r := by
      rw [recipients.eq_def]
      split
      · rename_i h; cases h
      · rename_i l' h; injection h with h1 h2; exact absurd h2 (hns l' h1)
      · rename_i h; injection h with h1 h2; subst h1; subst h2; rw [hr]
    rw [hr] at ih
    rw [e]
    have hpre : a <+: l := by rw [← ih.1]; exact prefix_intercalate a r
    refine ⟨?_, ?_⟩
    · have h1 := ih.1
      cases r with
      | nil => rw [intercalate_one] at h1 ⊢; rw [h1]
      | cons b r =>
        rw [intercalate_cons _ _ (by simp)] at h1 ⊢
        rw [List.cons_append, List.cons_append, h1]
    · intro q hq
      rcases List.mem_cons.mp hq with rfl | hq
      · intro h
        rcases List.infix_cons_iff.mp h with h | h
        · obtain ⟨t, ht⟩ := h
          injection ht with h1 h2
          obtain ⟨u, hu⟩ := hpre
          exact hns (t ++ u) h1.symm (by rw [← hu, ← h2]; rfl)
        · exact ih.2 a (List.mem_cons_self ..) h
      · exact ih.2 q (List.mem_cons_of_mem _ hq)

/-! ## Sessions -/

theorem post_eq (n : Net) (c : Cfg) (s t : Str) :
    post n c s t = (seen [(none, n.render s t), (some (.mail c.sender (recipients c.dest) s t), n.mail)],
      failed [(none, n.render s t), (some (.mail c.sender (recipients c.dest) s t), n.mail)]) := by
  unfold post
  cases n.render s t <;> cases hm : n.mail <;> simp [seen, failed]

/-- The step of the login. -/
def loginSteps (n : Net) (c : Cfg) : List (Option Ev × Option Exc) :=
  match c.user, c.password with
  | some (u :: us), some (q :: qs) => [(some (.login (u :: us) (q :: qs)), n.login)]
  | _, _ => []

/-- The step of encryption. -/
def tlsSteps (n : Net) (c : Cfg) : List (Option Ev × Option Exc) :=
  if c.ssl = .int 0 ∨ c.ssl = .text [] then [] else
    [(some .starttls, match n.starttls with
      | .error e => some e
      | .ok code => if code = 220 then none else some .tls)]

theorem steps_eq (n : Net) (c : Cfg) (h p s t : Str) : steps n c h p s t =
    (some (.connect h p), n.connect) :: (tlsSteps n c ++ (loginSteps n c ++ [(none, n.render s t), (some (.mail c.sender (recipients c.dest) s t), n.mail)])) := by
  unfold steps tlsSteps loginSteps
  simp only [List.append_assoc, List.singleton_append]
  rfl

theorem seen_cons_some (e : Option Ev) (x : Exc) (l : List (Option Ev × Option Exc)) : seen ((e, some x) :: l) = e.toList := rfl
theorem seen_cons_none (e : Option Ev) (l : List (Option Ev × Option Exc)) : seen ((e, none) :: l) = e.toList ++ seen l := rfl
theorem failed_cons_some (e : Option Ev) (x : Exc) (l : List (Option Ev × Option Exc)) : failed ((e, some x) :: l) = some x := rfl
theorem failed_cons_none (e : Option Ev) (l : List (Option Ev × Option Exc)) : failed ((e, none) :: l) = failed l := rfl

theorem authPost_eq (n : Net) (c : Cfg) (s t : Str) :
    authPost n c s t = (seen (loginSteps n c ++ [(none, n.render s t), (some (.mail c.sender (recipients c.dest) s t), n.mail)]),
      failed (loginSteps n c ++ [(none, n.render s t), (some (.mail c.sender (recipients c.dest) s t), n.mail)])) := by
  unfold authPost loginSteps
  cases c.user with
  | none => exact post_eq n c s t
  | some u =>
    cases c.password with
    | none => cases u <;> exact post_eq n c s t
    | some p =>
      cases u with
      | nil => exact post_eq n c s t
      | cons u us =>
        cases p with
        | nil => exact post_eq n c s t
        | cons q qs =>
          simp only [List.isEmpty_cons, Bool.or_self, Bool.false_eq_true, if_false, List.singleton_append]
          cases n.login with
          | some e => rfl
          | none =>
            simp only [seen_cons_none, failed_cons_none, post_eq n c s t]
            rfl

theorem truthy_iff (x : Val) : x.truthy = false ↔ x = .int 0 ∨ x = .text [] := by
  cases x with
  | text s => cases s <;> simp [Val.truthy]
  | int n => simp [Val.truthy]

theorem tlsPost_eq (n : Net) (c : Cfg) (s t : Str) :
    tlsPost n c s t = (seen (tlsSteps n c ++ (loginSteps n c ++ [(none, n.render s t), (some (.mail c.sender (recipients c.dest) s t), n.mail)])),
      failed (tlsSteps n c ++ (loginSteps n c ++ [(none, n.render s t), (some (.mail c.sender (recipients c.dest) s t), n.mail)]))) := by
  unfold tlsPost tlsSteps
  by_cases hs : c.ssl.truthy = true
  · have : ¬ (c.ssl = .int 0 ∨ c.ssl = .text []) := by
      rw [← truthy_iff]; simp [hs]
    rw [if_pos hs, if_neg this, List.singleton_append]
    cases n.starttls with
    | error e => rfl
    | ok code =>
      by_cases hc : code = 220
      · simp only [hc, ne_eq, not_true_eq_false, if_false, if_true, seen_cons_none, failed_cons_none, authPost_eq n c s t]
        rfl
      · simp only [ne_eq, hc, not_false_eq_true, if_true, if_false, seen_cons_some, failed_cons_some]
        rfl
  · have : c.ssl = .int 0 ∨ c.ssl = .text [] := (truthy_iff _).mp (by simpa using hs)
    rw [if_neg hs, if_pos this]
    exact authPost_eq n c s t

theorem session_eq (n : Net) (c : Cfg) (h p s t : Str) : session n c h p s t = (seen (steps n c h p s t), failed (steps n c h p s t)) := by
  unfold session
  rw [steps_eq]
  cases n.connect with
  | some e => rfl
  | none =>
    simp only [seen_cons_none, failed_cons_none, tlsPost_eq n c s t]
    rfl

theorem first (c : Char) (s : Str) : c ∉ s ∨ ∃ a b, s = a ++ c :: b ∧ c ∉ a := by
  induction s with
  | nil => exact Or.inl List.not_mem_nil
  | cons x s ih =>
    by_cases hx : x = c
    · subst hx; exact Or.inr ⟨[], s, rfl, List.not_mem_nil⟩
    · rcases ih with h | ⟨a, b, rfl, ha⟩
      · exact Or.inl (by simp [h, Ne.symm hx])
      · exact Or.inr ⟨x :: a, b, rfl, by simp [ha, Ne.symm hx]⟩

theorem host_iff (s h p : Str) : splitOn ':' s = [h, p] ↔ s = h ++ ':' :: p ∧ ':' ∉ h ∧ ':' ∉ p := by
  constructor
  · intro e
    rcases first ':' s with hs | ⟨a, b, rfl, ha⟩
    · rw [splitOn_clean _ _ hs] at e; cases e
    · rw [splitOn_append _ _ _ ha] at e
      injection e with e1 e2
      subst e1
      rcases first ':' b with hb | ⟨a', b', rfl, ha'⟩
      · rw [splitOn_clean _ _ hb] at e2
        injection e2 with e2 _
        subst e2
        exact ⟨rfl, ha, hb⟩
      · rw [splitOn_append _ _ _ ha'] at e2
        injection e2 with _ e2
        exact absurd e2 (splitOn_ne_nil ':' b')
  · rintro ⟨rfl, h1, h2⟩
    rw [splitOn_append _ _ _ h1, splitOn_clean _ _ h2]

/-- Host and port are on either side of the one colon; for any other setting nothing is sent and there is an exception. -/
theorem C115_host (n : Net) (c : Cfg) (s t : Str) :
    (∀ h p, c.host = h ++ ':' :: p → ':' ∉ h → ':' ∉ p → n.make = none →
      send n c s t = (.make h p :: (seen (steps n c h p s t) ++ [.quit]), finish n (failed (steps n c h p s t)))) ∧
    (∀ h p e, c.host = h ++ ':' :: p → ':' ∉ h → ':' ∉ p → n.make = some e → send n c s t = ([.make h p], some e)) ∧
    ((∀ h p, c.host = h ++ ':' :: p → ':' ∈ h ∨ ':' ∈ p) → send n c s t = ([], some .value)) := by
  refine ⟨?_, ?_, ?_⟩
  · intro h p e h1 h2 hm
    unfold send
    rw [(host_iff _ _ _).mpr ⟨e, h1, h2⟩]
    simp only [hm, session_eq]
  · intro h p x e h1 h2 hm
    unfold send
    rw [(host_iff _ _ _).mpr ⟨e, h1, h2⟩]
    simp only [hm]
  · intro hn
    unfold send
    split
    · rename_i h p e
      obtain ⟨e, h1, h2⟩ := (host_iff _ _ _).mp e
      rcases hn h p e with h | h
      · exact absurd h h1
      · exact absurd h h2
    · rfl

/-- The setting of the documentation, `localhost` without a port, is such a one: with the default nothing is ever sent. -/
theorem C115_refuted_default (n : Net) (c : Cfg) (hc : c.host = ({} : Cfg).host) (s t : Str) : send n c s t = ([], some .value) := by
  refine (C115_host n c s t).2.2 ?_
  intro h p e
  rw [hc] at e
  have : ':' ∈ ({} : Cfg).host := by rw [e]; simp
  exact absurd this (by decide +kernel)

/-- All that can be seen of a call is one of these: nothing, a failed connection, or a session that ends with `quit`. -/
theorem send_cases (n : Net) (c : Cfg) (s t : Str) :
    send n c s t = ([], some .value) ∨ (∃ h p e, n.make = some e ∧ send n c s t = ([.make h p], some e)) ∨
      ∃ h p, n.make = none ∧ send n c s t = (.make h p :: (seen (steps n c h p s t) ++ [.quit]), finish n (failed (steps n c h p s t))) := by
  unfold send
  split
  · rename_i h p _
    cases hm : n.make with
    | some e => exact Or.inr (Or.inl ⟨h, p, e, rfl, rfl⟩)
    | none => exact Or.inr (Or.inr ⟨h, p, rfl, by simp only [session_eq]⟩)
  · exact Or.inl rfl

theorem seen_sub (l : List (Option Ev × Option Exc)) (x : Ev) (h : x ∈ seen l) : ∃ e, (some x, e) ∈ l := by
  induction l with
  | nil => cases h
  | cons a l ih =>
    obtain ⟨o, e⟩ := a
    cases e with
    | some e =>
      rw [seen_cons_some] at h
      exact ⟨some e, by rw [Option.mem_toList.mp h]; exact List.mem_cons_self ..⟩
    | none =>
      rw [seen_cons_none, List.mem_append] at h
      rcases h with h | h
      · exact ⟨none, by rw [Option.mem_toList.mp h]; exact List.mem_cons_self ..⟩
      · obtain ⟨e, he⟩ := ih h; exact ⟨e, List.mem_cons_of_mem _ he⟩

/-- What comes behind a step is seen only if the step went well. -/
theorem seen_split (a b : List (Option Ev × Option Exc)) (x : Ev) (h : x ∈ seen (a ++ b)) (hx : ∀ e, (some x, e) ∉ a) :
    (∀ y ∈ a, y.2 = none) ∧ seen (a ++ b) = seen a ++ seen b := by
  induction a with
  | nil => exact ⟨fun y hy => (by cases hy), rfl⟩
  | cons p a ih =>
    obtain ⟨o, e⟩ := p
    have ho : o ≠ some x := fun e' => hx e (by rw [← e']; exact List.mem_cons_self ..)
    rw [List.cons_append] at h ⊢
    cases e with
    | some e => rw [seen_cons_some] at h; exact absurd (Option.mem_toList.mp h) ho
    | none =>
      rw [seen_cons_none, List.mem_append] at h
      rcases h with h | h
      · exact absurd (Option.mem_toList.mp h) ho
      · obtain ⟨h1, h2⟩ := ih h (fun e he => hx e (List.mem_cons_of_mem _ he))
        refine ⟨?_, ?_⟩
        · intro y hy
          rcases List.mem_cons.mp hy with rfl | hy
          · rfl
          · exact h1 y hy
        · rw [seen_cons_none, seen_cons_none, h2, List.append_assoc]

/-- With encryption asked for, neither password nor mail is given away before the server has agreed to encrypt. -/
theorem C115_encrypted (n : Net) (c : Cfg) (s t : Str) (hs : c.ssl.truthy = true) (x : Ev) (hx : x ∈ (send n c s t).1)
    (hk : (∃ u p, x = .login u p) ∨ ∃ a b d e, x = .mail a b d e) :
    n.starttls = .ok 220 ∧ ∃ h p r, (send n c s t).1 = .make h p :: .connect h p :: .starttls :: r := by
  rcases send_cases n c s t with e | ⟨h, p, e, _, e'⟩ | ⟨h, p, _, e⟩
  · rw [e] at hx; cases hx
  · rw [e', List.mem_singleton] at hx
    subst hx
    rcases hk with ⟨_, _, h⟩ | ⟨_, _, _, _, h⟩ <;> cases h
  · rw [e] at hx ⊢
    have ht : ¬ (c.ssl = .int 0 ∨ c.ssl = .text []) := by rw [← truthy_iff]; simp [hs]
    have hx' : x ∈ seen (steps n c h p s t) := by
      rcases List.mem_cons.mp hx with rfl | hx
      · rcases hk with ⟨_, _, h⟩ | ⟨_, _, _, _, h⟩ <;> cases h
      · rcases List.mem_append.mp hx with hx | hx
        · exact hx
        · rw [List.mem_singleton] at hx
          subst hx
          rcases hk with ⟨_, _, h⟩ | ⟨_, _, _, _, h⟩ <;> cases h
    rw [steps_eq] at hx' ⊢
    unfold tlsSteps at hx' ⊢
    rw [if_neg ht] at hx' ⊢
    rw [List.singleton_append] at hx' ⊢
    obtain ⟨h1, h2⟩ := seen_split [_, _] _ x (by simpa using hx') (by
      intro e' he
      rcases hk with ⟨_, _, rfl⟩ | ⟨_, _, _, _, rfl⟩ <;> simp at he)
    refine ⟨?_, ?_⟩
    · have := h1 _ (List.mem_cons_of_mem _ (List.mem_cons_self ..))
      revert this
      simp only
      split
      · intro h; cases h
      · split
        · rename_i hc; subst hc; intro _; assumption
        · intro h; cases h
    · have hc := h1 _ (List.mem_cons_self ..)
      have hc2 := h1 _ (List.mem_cons_of_mem _ (List.mem_cons_self ..))
      simp only at hc hc2
      rw [hc, hc2]
      exact ⟨h, p, _, rfl⟩

/-- Whoever is connected says goodbye: a session has exactly one `quit`, at its end, and there is one exactly if a connection was made. -/
theorem C115_quit (n : Net) (c : Cfg) (s t : Str) :
    (.quit ∈ (send n c s t).1 ↔ n.make = none ∧ (send n c s t).1 ≠ []) ∧
      (.quit ∈ (send n c s t).1 → ∃ l, (send n c s t).1 = l ++ [.quit] ∧ .quit ∉ l) := by
  have hq : ∀ h p, .quit ∉ seen (steps n c h p s t) := by
    intro h p hm
    obtain ⟨e, he⟩ := seen_sub _ _ hm
    rw [steps_eq] at he
    unfold tlsSteps loginSteps at he
    simp only [List.mem_cons, List.mem_append] at he
    rcases he with he | he | he | he | he | he
    · cases he
    · split at he
      · cases he
      · rw [List.mem_singleton] at he; cases he
    · split at he
      · rw [List.mem_singleton] at he; cases he
      · cases he
    · cases he
    · cases he
    · cases he
  rcases send_cases n c s t with e | ⟨h, p, e, hm, e'⟩ | ⟨h, p, hm, e⟩
  · rw [e]; exact ⟨⟨fun h => (by cases h), fun h => absurd rfl h.2⟩, fun h => (by cases h)⟩
  · rw [e', hm]
    refine ⟨⟨fun h => ?_, fun h => (by cases h.1)⟩, fun h => ?_⟩ <;> (rw [List.mem_singleton] at h; cases h)
  · rw [e, hm]
    refine ⟨⟨fun _ => ⟨rfl, by simp⟩, fun _ => by simp⟩, fun _ => ⟨_ :: _, rfl, ?_⟩⟩
    intro h'
    rcases List.mem_cons.mp h' with h' | h'
    · cases h'
    · exact hq h p h'

theorem failed_none (l : List (Option Ev × Option Exc)) : failed l = none ↔ ∀ x ∈ l, x.2 = none := by
  unfold failed
  rw [List.findSome?_eq_none_iff]

/-- A call returns without an exception exactly if the mail was handed over and the goodbye had no other error than a lost connection. -/
theorem C115_returns (n : Net) (c : Cfg) (s t : Str) :
    (send n c s t).2 = none ↔ .mail c.sender (recipients c.dest) s t ∈ (send n c s t).1 ∧ n.mail = none ∧ (n.quit = none ∨ n.quit = some .disconnected) := by
  rcases send_cases n c s t with e | ⟨h, p, e, hm, e'⟩ | ⟨h, p, hm, e⟩
  · rw [e]; simp
  · rw [e']; simp
  · rw [e]
    have hfin : ∀ x, finish n x = none ↔ x = none ∧ (n.quit = none ∨ n.quit = some .disconnected) := by
      intro x
      unfold finish
      split
      · rename_i hq; simp [hq]
      · rename_i hq; simp [hq]
      · rename_i q hq hq'; simp [hq']; intro _ h; exact hq h
    rw [hfin, failed_none]
    have hsplit : steps n c h p s t = ((some (.connect h p), n.connect) :: (tlsSteps n c ++ (loginSteps n c ++ [(none, n.render s t)]))) ++
        [(some (.mail c.sender (recipients c.dest) s t), n.mail)] := by
      rw [steps_eq]; simp
    have hnot : ∀ e', (some (Ev.mail c.sender (recipients c.dest) s t), e') ∉ ((some (.connect h p), n.connect) :: (tlsSteps n c ++ (loginSteps n c ++ [(none, n.render s t)]))) := by
      intro e' he
      unfold tlsSteps loginSteps at he
      simp only [List.mem_cons, List.mem_append] at he
      rcases he with he | he | he | he | he
      · cases he
      · split at he
        · cases he
        · rw [List.mem_singleton] at he; cases he
      · split at he
        · rw [List.mem_singleton] at he; cases he
        · cases he
      · cases he
      · cases he
    constructor
    · rintro ⟨h1, h2⟩
      refine ⟨?_, ?_, h2⟩
      · refine List.mem_cons_of_mem _ (List.mem_append_left _ ?_)
        have all : ∀ (l : List (Option Ev × Option Exc)), (∀ x ∈ l, x.2 = none) → ∀ x e, (some x, e) ∈ l → x ∈ seen l := by
          intro l
          induction l with
          | nil => intro _ x e he; cases he
          | cons a l ih =>
            intro hl x e he
            obtain ⟨o, a2⟩ := a
            have : a2 = none := hl _ (List.mem_cons_self ..)
            subst this
            rw [seen_cons_none, List.mem_append]
            rcases List.mem_cons.mp he with he | he
            · left; injection he with he _; rw [← he]; exact List.mem_cons_self ..
            · right; exact ih (fun y hy => hl y (List.mem_cons_of_mem _ hy)) x e he
        exact all _ h1 _ n.mail (by rw [hsplit]; simp)
      · exact h1 (some (.mail c.sender (recipients c.dest) s t), n.mail) (by rw [hsplit]; simp)
    · rintro ⟨h1, h2, h3⟩
      refine ⟨?_, h3⟩
      have h1' : .mail c.sender (recipients c.dest) s t ∈ seen (steps n c h p s t) := by
        rcases List.mem_cons.mp h1 with h1 | h1
        · cases h1
        · rcases List.mem_append.mp h1 with h1 | h1
          · exact h1
          · rw [List.mem_singleton] at h1; cases h1
      rw [hsplit] at h1' ⊢
      obtain ⟨h4, _⟩ := seen_split _ _ _ h1' hnot
      intro y hy
      rcases List.mem_append.mp hy with hy | hy
      · exact h4 y hy
      · rw [List.mem_singleton] at hy; subst hy; exact h2

/-! ## Texts -/

theorem own_jail (jail h : Str) : own jail h "jailname".toList = some (.text jail) := by unfold own; rw [if_pos rfl]
theorem own_host (jail h : Str) : own jail h "hostname".toList = some (.text h) := by
  unfold own; rw [if_neg (by decide +kernel), if_pos rfl]

theorem up_jail (jail h : Str) (b : Int) (info : Str → Option Val) : updated jail h b info "jailname".toList = some (.text jail) := by unfold updated; rw [if_pos rfl]
theorem up_host (jail h : Str) (b : Int) (info : Str → Option Val) : updated jail h b info "hostname".toList = some (.text h) := by
  unfold updated; rw [if_neg (by decide +kernel), if_pos rfl]
theorem up_bantime (jail h : Str) (b : Int) (info : Str → Option Val) : updated jail h b info "bantime".toList = some (.int b) := by
  unfold updated; rw [if_neg (by decide +kernel), if_neg (by decide +kernel), if_pos rfl]
theorem up_other (jail h : Str) (b : Int) (info : Str → Option Val) (k : Str) (h1 : k ≠ "jailname".toList) (h2 : k ≠ "hostname".toList) (h3 : k ≠ "bantime".toList) :
    updated jail h b info k = info k := by
  unfold updated; rw [if_neg h1, if_neg h2, if_neg h3]

/-- The mails about start and stop of a jail. -/
theorem C115_lifecycle (jail : Str) (m : Memo) (w : World) (c : Cfg) :
    (call jail m w c .start).2 = send w.net c ("[Fail2Ban] ".toList ++ jail ++ ": started on ".toList ++ m.hostname.getD w.hostname)
        ("Hi,\n\nThe jail ".toList ++ jail ++ " has been started successfully.\n\nRegards,\nFail2Ban".toList) ∧
    (call jail m w c .stop).2 = send w.net c ("[Fail2Ban] ".toList ++ jail ++ ": stopped on ".toList ++ m.hostname.getD w.hostname)
        ("Hi,\n\nThe jail ".toList ++ jail ++ " has been stopped.\n\nRegards,\nFail2Ban".toList) := by
  have key : ∀ (v : Str → Option Val) (h a d e f : Str), v "jailname".toList = some (.text jail) → v "hostname".toList = some (.text h) →
      '%' ∉ a → '%' ∉ d → '%' ∉ e → '%' ∉ f →
      fmt v .lit (a ++ ("%(jailname)s".toList ++ (d ++ ("%(hostname)s".toList ++ [])))) = some (a ++ jail ++ d ++ h) ∧
      fmt v .lit (e ++ ("%(jailname)s".toList ++ (f ++ []))) = some (e ++ jail ++ f) := by
    intro v h a d e f hj hh ha hd he hf
    have f1 := (C115_format v [.lit a, .str "jailname".toList, .lit d, .str "hostname".toList] (by
      intro p hp
      simp only [List.mem_cons, List.not_mem_nil, or_false] at hp
      rcases hp with rfl | rfl | rfl | rfl
      · exact ha
      · show ')' ∉ _; decide +kernel
      · exact hd
      · show ')' ∉ _; decide +kernel) _).mpr (.cons (.lit a) (.cons (.str _ _ hj) (.cons (.lit d) (.cons (.str _ _ hh) .nil))))
    have f2 := (C115_format v [.lit e, .str "jailname".toList, .lit f] (by
      intro p hp
      simp only [List.mem_cons, List.not_mem_nil, or_false] at hp
      rcases hp with rfl | rfl | rfl
      · exact he
      · show ')' ∉ _; decide +kernel
      · exact hf) _).mpr (.cons (.lit e) (.cons (.str _ _ hj) (.cons (.lit f) .nil)))
    have s1 : "%(jailname)s".toList = Piece.source (.str "jailname".toList) := by decide +kernel
    have s2 : "%(hostname)s".toList = Piece.source (.str "hostname".toList) := by decide +kernel
    rw [s1, s2]
    constructor
    · have : a ++ jail ++ d ++ h = a ++ (shown (.text jail) ++ (d ++ (shown (.text h) ++ []))) := by simp only [shown, List.append_assoc, List.append_nil]
      rw [this]; exact f1
    · have : e ++ jail ++ f = e ++ (shown (.text jail) ++ (f ++ [])) := by simp only [shown, List.append_assoc, List.append_nil]
      rw [this]; exact f2
  have fin : ∀ (n : Net) (v : Str → Option Val) (s t s' t' : Str), fmt v .lit s = some s' → fmt v .lit t = some t' → compose n c v s t = send n c s' t' := by
    intro n v s t s' t' h1 h2
    unfold compose
    rw [h1, h2]
  constructor
  · obtain ⟨k1, k2⟩ := key (own jail (m.hostname.getD w.hostname)) (m.hostname.getD w.hostname) "[Fail2Ban] ".toList ": started on ".toList "Hi,\n\nThe jail ".toList
      " has been started successfully.\n\nRegards,\nFail2Ban".toList (own_jail ..) (own_host ..) (by decide +kernel) (by decide +kernel) (by decide +kernel) (by decide +kernel)
    have s1 : startSubject = "[Fail2Ban] ".toList ++ ("%(jailname)s".toList ++ (": started on ".toList ++ ("%(hostname)s".toList ++ []))) := by decide +kernel
    have s2 : startText = "Hi,\n\nThe jail ".toList ++ ("%(jailname)s".toList ++ (" has been started successfully.\n\nRegards,\nFail2Ban".toList ++ [])) := by decide +kernel
    exact fin w.net _ _ _ _ _ (s1 ▸ k1) (s2 ▸ k2)
  · obtain ⟨k1, k2⟩ := key (own jail (m.hostname.getD w.hostname)) (m.hostname.getD w.hostname) "[Fail2Ban] ".toList ": stopped on ".toList "Hi,\n\nThe jail ".toList
      " has been stopped.\n\nRegards,\nFail2Ban".toList (own_jail ..) (own_host ..) (by decide +kernel) (by decide +kernel) (by decide +kernel) (by decide +kernel)
    have s1 : stopSubject = "[Fail2Ban] ".toList ++ ("%(jailname)s".toList ++ (": stopped on ".toList ++ ("%(hostname)s".toList ++ []))) := by decide +kernel
    have s2 : stopText = "Hi,\n\nThe jail ".toList ++ ("%(jailname)s".toList ++ (" has been stopped.\n\nRegards,\nFail2Ban".toList ++ [])) := by decide +kernel
    exact fin w.net _ _ _ _ _ (s1 ▸ k1) (s2 ▸ k2)

/-- Pieces of the part about matches. -/
def partPieces (kind : Option Str) : List Piece :=
  if kind = some "matches".toList then [.lit "\nMatches for this ban:\n".toList, .str "matches".toList, .lit "\n".toList]
  else if kind = some "ipmatches".toList then [.lit "\nMatches for ".toList, .str "ip".toList, .lit ":\n".toList, .str "ipmatches".toList, .lit "\n".toList]
  else if kind = some "ipjailmatches".toList then
    [.lit "\nMatches for ".toList, .str "ip".toList, .lit " for jail ".toList, .str "jailname".toList, .lit ":\n".toList, .str "ipjailmatches".toList, .lit "\n".toList]
  else []

def headPieces : List Piece :=
  [.lit "Hi,\n\nThe IP ".toList, .str "ip".toList, .lit " has just been banned for ".toList, .num "bantime".toList, .lit " seconds\nby Fail2Ban after ".toList,
    .num "failures".toList, .lit " attempts against ".toList, .str "jailname".toList, .lit ".\n".toList]

def tailPieces : List Piece := [.lit "\nRegards,\nFail2Ban".toList]

theorem banText_eq (kind : Option Str) (h1 : kind ≠ some "head".toList) (h2 : kind ≠ some "tail".toList) :
    banText kind = (headPieces ++ partPieces kind ++ tailPieces).flatMap Piece.source := by
  by_cases h3 : kind = some "matches".toList
  · subst h3; decide +kernel
  · by_cases h4 : kind = some "ipmatches".toList
    · subst h4; decide +kernel
    · by_cases h5 : kind = some "ipjailmatches".toList
      · subst h5; decide +kernel
      · have hp : partPieces kind = [] := by unfold partPieces; rw [if_neg h3, if_neg h4, if_neg h5]
        have hl : (kind.bind (fun k => banTexts.lookup k)).getD [] = [] := by
          cases kind with
          | none => rfl
          | some k =>
            have ne : ∀ x : Str, (some k : Option Str) ≠ some x → (k == x) = false := fun x hx => beq_false_of_ne (fun e => hx (by rw [e]))
            show (banTexts.lookup k).getD [] = []
            unfold banTexts
            simp only [List.lookup, ne _ h1, ne _ h2, ne _ h3, ne _ h4, ne _ h5, Option.getD_none]
        unfold banText
        rw [hp, hl]
        decide +kernel

theorem pieces_ok (kind : Option Str) : ∀ p ∈ headPieces ++ partPieces kind ++ tailPieces, p.Ok := by
  have l : ∀ ps : List Piece, ps.all (fun p => match p with
      | .lit s => !s.contains '%'
      | .str n => !n.contains ')'
      | .num n => !n.contains ')') = true → ∀ p ∈ ps, p.Ok := by
    intro ps h p hp
    have := List.all_eq_true.mp h p hp
    cases p <;> simpa [Piece.Ok] using this
  intro p hp
  rcases List.mem_append.mp hp with hp | hp
  · rcases List.mem_append.mp hp with hp | hp
    · exact l _ (by decide +kernel) p hp
    · refine l (partPieces kind) ?_ p hp
      unfold partPieces
      split
      · decide +kernel
      · split
        · decide +kernel
        · split
          · decide +kernel
          · rfl
  · exact l _ (by decide +kernel) p hp

theorem Filled.append {v : Str → Option Val} {ps qs : List Piece} {s t : Str} (h1 : Filled v ps s) (h2 : Filled v qs t) : Filled v (ps ++ qs) (s ++ t) := by
  induction h1 with
  | nil => exact h2
  | cons r _ ih => rw [List.cons_append, List.append_assoc]; exact .cons r ih

theorem assoc3 (a b c : Str) : a ++ b ++ c = a ++ (b ++ (c ++ [])) := by simp
theorem assoc5 (a b c d e : Str) : a ++ b ++ c ++ d ++ e = a ++ (b ++ (c ++ (d ++ (e ++ [])))) := by simp
theorem assoc6 (a b c d e f : Str) : a ++ b ++ c ++ d ++ e ++ f = a ++ (b ++ (c ++ (d ++ (e ++ (f ++ []))))) := by simp
theorem assoc7 (a b c d e f g : Str) : a ++ b ++ c ++ d ++ e ++ f ++ g = a ++ (b ++ (c ++ (d ++ (e ++ (f ++ (g ++ [])))))) := by simp
theorem assoc11 (a b c d e f g h i p t : Str) : a ++ b ++ c ++ d ++ e ++ f ++ g ++ h ++ i ++ p ++ t =
    (a ++ (b ++ (c ++ (d ++ (e ++ (f ++ (g ++ (h ++ (i ++ []))))))))) ++ p ++ (t ++ []) := by simp

def subjPieces : List Piece :=
  [.lit "[Fail2Ban] ".toList, .str "jailname".toList, .lit ": banned ".toList, .str "ip".toList, .lit " from ".toList, .str "hostname".toList]

theorem banSubj_fmt (v : Str → Option Val) (jail h : Str) (ip : Val) (vj : v "jailname".toList = some (.text jail)) (vh : v "hostname".toList = some (.text h))
    (vip : v "ip".toList = some ip) : fmt v .lit banSubject = some (banSubj jail (shown ip) h) := by
  have e : banSubject = subjPieces.flatMap Piece.source := by decide +kernel
  rw [e]
  refine (C115_format v _ ?_ _).mpr ?_
  · intro p hp
    unfold subjPieces at hp
    simp only [List.mem_cons, List.not_mem_nil, or_false] at hp
    rcases hp with rfl | rfl | rfl | rfl | rfl | rfl
    · show '%' ∉ _; decide +kernel
    · show ')' ∉ _; decide +kernel
    · show '%' ∉ _; decide +kernel
    · show ')' ∉ _; decide +kernel
    · show '%' ∉ _; decide +kernel
    · show ')' ∉ _; decide +kernel
  · unfold banSubj subjPieces
    rw [assoc6]
    exact .cons (.lit _) (.cons (.str _ (.text jail) vj) (.cons (.lit _) (.cons (.str _ ip vip) (.cons (.lit _) (.cons (.str _ (.text h) vh) .nil)))))

theorem part_fmt (v : Str → Option Val) (kind : Option Str) (jail ms : Str) (ip : Val) (vj : v "jailname".toList = some (.text jail)) (vip : v "ip".toList = some ip)
    (vm : ∀ k, kind = some k → k ∈ ["matches".toList, "ipmatches".toList, "ipjailmatches".toList] → v k = some (.text ms)) :
    Filled v (partPieces kind) (matchPart kind jail (shown ip) ms) := by
  unfold partPieces matchPart
  split
  · rename_i hk
    have := vm _ hk (by decide +kernel)
    rw [assoc3]
    exact .cons (.lit _) (.cons (.str _ (.text ms) this) (.cons (.lit _) .nil))
  · split
    · rename_i hk
      have := vm _ hk (by decide +kernel)
      rw [assoc5]
      exact .cons (.lit _) (.cons (.str _ ip vip) (.cons (.lit _) (.cons (.str _ (.text ms) this) (.cons (.lit _) .nil))))
    · split
      · rename_i hk
        have := vm _ hk (by decide +kernel)
        rw [assoc7]
        exact .cons (.lit _) (.cons (.str _ ip vip) (.cons (.lit _) (.cons (.str _ (.text jail) vj) (.cons (.lit _) (.cons (.str _ (.text ms) this) (.cons (.lit _) .nil))))))
      · exact .nil

theorem banMail_fmt (v : Str → Option Val) (kind : Option Str) (jail ms : Str) (ip : Val) (b f : Int) (vj : v "jailname".toList = some (.text jail))
    (vip : v "ip".toList = some ip) (vb : v "bantime".toList = some (.int b)) (vf : v "failures".toList = some (.int f))
    (vm : ∀ k, kind = some k → k ∈ ["matches".toList, "ipmatches".toList, "ipjailmatches".toList] → v k = some (.text ms))
    (h1 : kind ≠ some "head".toList) (h2 : kind ≠ some "tail".toList) : fmt v .lit (banText kind) = some (banMail kind jail (shown ip) ms b f) := by
  rw [banText_eq _ h1 h2]
  refine (C115_format v _ (pieces_ok _) _).mpr ?_
  unfold banMail
  rw [assoc11]
  refine Filled.append (Filled.append ?_ (part_fmt v kind jail ms ip vj vip vm)) (.cons (.lit _) .nil)
  unfold headPieces
  exact .cons (.lit _) (.cons (.str _ ip vip) (.cons (.lit _) (.cons (.num _ b vb) (.cons (.lit _) (.cons (.num _ f vf) (.cons (.lit _)
    (.cons (.str _ (.text jail) vj) (.cons (.lit _) .nil))))))))

/-- The mail about a ban: who was banned, how often and where they failed, and the matches asked for, exactly as they were in the log. The time of the ban is that
of the action, not of the ban. -/
theorem C115_ban (jail : Str) (m : Memo) (w : World) (c : Cfg) (info : Str → Option Val) (ip : Val) (f : Int) (ms : Str)
    (hr : ((info "restored".toList).map Val.truthy).getD false = false) (hip : info "ip".toList = some ip) (hf : info "failures".toList = some (.int f))
    (hm : ∀ k, c.kind = some k → k ∈ ["matches".toList, "ipmatches".toList, "ipjailmatches".toList] → info k = some (.text ms))
    (h1 : c.kind ≠ some "head".toList) (h2 : c.kind ≠ some "tail".toList) :
    (call jail m w c (.ban info)).2 = send w.net c (banSubj jail (shown ip) (m.hostname.getD w.hostname))
      (banMail c.kind jail (shown ip) ms (m.bantime.getD w.bantime) f) := by
  have hcall : (call jail m w c (.ban info)).2 =
      compose w.net c (updated jail (m.hostname.getD w.hostname) (m.bantime.getD w.bantime) info) banSubject (banText c.kind) := by
    unfold call
    simp only [hr, Bool.false_eq_true, if_false]
  rw [hcall]
  generalize m.hostname.getD w.hostname = h
  generalize m.bantime.getD w.bantime = b
  have vip : updated jail h b info "ip".toList = some ip := by
    rw [up_other _ _ _ _ _ (by decide +kernel) (by decide +kernel) (by decide +kernel)]; exact hip
  have vf : updated jail h b info "failures".toList = some (.int f) := by
    rw [up_other _ _ _ _ _ (by decide +kernel) (by decide +kernel) (by decide +kernel)]; exact hf
  have vm : ∀ k, c.kind = some k → k ∈ ["matches".toList, "ipmatches".toList, "ipjailmatches".toList] → updated jail h b info k = some (.text ms) := by
    intro k hk hk'
    rw [up_other]
    · exact hm k hk hk'
    all_goals (intro e; subst e; exact absurd hk' (by decide +kernel))
  unfold compose
  rw [banSubj_fmt _ jail h ip (up_jail ..) (up_host ..) vip, banMail_fmt _ c.kind jail ms ip b f (up_jail ..) vip (up_bantime ..) vf vm h1 h2]

/-- Nothing happens for a ban restored from the database. -/
theorem C115_restored (jail : Str) (m : Memo) (w : World) (c : Cfg) (info : Str → Option Val) (x : Val) (hr : info "restored".toList = some x) (hx : x.truthy = true) :
    call jail m w c (.ban info) = (m, [], none) := by
  unfold call
  simp only [hr, Option.map_some, Option.getD_some, hx, if_true]

/-! ## Histories -/

theorem calls_memo (jail : Str) (m : Memo) (pre : List (World × Cfg × Call)) (w : World) (c : Cfg) (x : Call) (post : List (World × Cfg × Call)) :
    (calls jail m (pre ++ (w, c, x) :: post))[pre.length]? =
      some (call jail ⟨m.hostname.or ((pre.find? asks).map (·.1.hostname)), m.bantime.or ((pre.find? tells).map (·.1.bantime))⟩ w c x).2 := by
  induction pre generalizing m with
  | nil =>
    obtain ⟨h, b⟩ := m
    simp [calls]
  | cons y pre ih =>
    obtain ⟨w', c', x'⟩ := y
    rw [List.cons_append, calls]
    simp only [List.length_cons, List.getElem?_cons_succ]
    rw [ih]
    congr 3
    obtain ⟨h, b⟩ := m
    cases x' with
    | start =>
      have e1 : asks (w', c', .start) = true := rfl
      have e2 : tells (w', c', .start) = false := rfl
      simp only [call, List.find?_cons, e1, e2]
      cases h <;> simp
    | stop =>
      have e1 : asks (w', c', .stop) = true := rfl
      have e2 : tells (w', c', .stop) = false := rfl
      simp only [call, List.find?_cons, e1, e2]
      cases h <;> simp
    | ban info =>
      have e2 : asks (w', c', .ban info) = tells (w', c', .ban info) := rfl
      cases e : ((info "restored".toList).map Val.truthy).getD false with
      | true =>
        have e1 : tells (w', c', .ban info) = false := by simp only [tells, e]; rfl
        simp only [call, List.find?_cons, e1, e2, e, if_true]
      | false =>
        have e1 : tells (w', c', .ban info) = true := by simp only [tells, e]; rfl
        simp only [call, List.find?_cons, e1, e2, e, Bool.false_eq_true, if_false]
        cases h <;> cases b <;> simp

/-- All mails of an action about bans tell the same time: the ban time of the jail when the first of them was sent, whatever the jail was set to later and
whatever the time of the ban is; the name of the host is that of the first mail. -/
theorem C115_bantime (jail : Str) (pre : List (World × Cfg × Call)) (w : World) (c : Cfg) (x : Call) (post : List (World × Cfg × Call)) :
    (calls jail {} (pre ++ (w, c, x) :: post))[pre.length]? =
      some (call jail ⟨(pre.find? asks).map (·.1.hostname), (pre.find? tells).map (·.1.bantime)⟩ w c x).2 := by
  rw [calls_memo]
  rfl

/-! ## Examples -/

/-- Everything works. -/
def goodNet : Net := ⟨none, none, .ok 220, none, fun _ _ => none, none, none⟩

def exCfg : Cfg := { host := "mx:25".toList, dest := "a@b, c@d".toList, kind := some "matches".toList }

/-- A ban of one day. -/
def exInfo (k : Str) : Option Val :=
  [("ip".toList, .text "192.0.2.1".toList), ("failures".toList, .int 3), ("matches".toList, .text "bad %(ip)s".toList), ("restored".toList, .int 0),
    ("bantime".toList, .int 86400)].lookup k

example : call "sshd".toList {} ⟨goodNet, "srv".toList, 600⟩ exCfg (.ban exInfo) = (⟨some "srv".toList, some 600⟩,
    [.make "mx".toList "25".toList, .connect "mx".toList "25".toList,
      .mail "fail2ban".toList ["a@b".toList, "c@d".toList] "[Fail2Ban] sshd: banned 192.0.2.1 from srv".toList
        ("Hi,\n\nThe IP 192.0.2.1 has just been banned for 600 seconds\nby Fail2Ban after 3 attempts against sshd.\n" ++
          "\nMatches for this ban:\nbad %(ip)s\n\nRegards,\nFail2Ban").toList, .quit], none) := by
  decide +kernel

example : (send goodNet { exCfg with ssl := .int 1, user := some ['u'], password := some ['p'] } [] []).1 =
    [.make "mx".toList "25".toList, .connect "mx".toList "25".toList, .starttls, .login ['u'] ['p'], .mail "fail2ban".toList ["a@b".toList, "c@d".toList] [] [], .quit] := by decide +kernel

example : send { goodNet with starttls := .ok 454 } { exCfg with ssl := .int 1, user := some ['u'], password := some ['p'] } [] [] =
    ([.make "mx".toList "25".toList, .connect "mx".toList "25".toList, .starttls, .quit], some .tls) := by decide +kernel

example : send { goodNet with make := some (.other 111) } exCfg [] [] = ([.make "mx".toList "25".toList], some (.other 111)) := by decide +kernel

example : send { goodNet with connect := some (.other 1), quit := some (.other 2) } exCfg [] [] =
    ([.make "mx".toList "25".toList, .connect "mx".toList "25".toList, .quit], some (.other 2)) := by decide +kernel

example : send goodNet { exCfg with host := "::1:25".toList } [] [] = ([], some .value) := by decide +kernel

example : recipients "a, b,c,, d".toList = ["a".toList, "b,c,".toList, "d".toList] := by decide +kernel

example : decInt (-1) = "-1".toList := by decide +kernel

/-- A value that is missing, or no number where one is needed: no mail at all. -/
example : fmt exInfo .lit "%(none)s".toList = none ∧ fmt exInfo .lit "%(ip)i".toList = none ∧ fmt exInfo .lit "100%%".toList = some "100%".toList := by decide +kernel

/-- The time told: the jail bans for an hour by now, and this address for a day, but the mail says 600 seconds, as for the first ban. -/
theorem C115_refuted_bantime : ∃ (w w' : World) (c : Cfg) (info : Str → Option Val), w'.bantime = 3600 ∧ info "bantime".toList = some (.int 86400) ∧
    ∃ e s t a b d, (calls "sshd".toList {} [(w, c, .ban info), (w', c, .ban info)])[1]? = some (a ++ [.mail d e s t] ++ b, none) ∧
      "Hi,\n\nThe IP 192.0.2.1 has just been banned for 600 seconds".toList <+: t :=
  ⟨⟨goodNet, "srv".toList, 600⟩, ⟨goodNet, "srv".toList, 3600⟩, exCfg, exInfo, rfl, by decide +kernel,
    ["a@b".toList, "c@d".toList], "[Fail2Ban] sshd: banned 192.0.2.1 from srv".toList,
    banMail exCfg.kind "sshd".toList "192.0.2.1".toList "bad %(ip)s".toList 600 3,
    [.make "mx".toList "25".toList, .connect "mx".toList "25".toList], [.quit], "fail2ban".toList, by decide +kernel, by decide +kernel⟩

/-- Settings of a configuration file are texts: `ssl=False` asks for encryption. -/
theorem C115_refuted_ssl (n : Net) (s t : Str) (hn : n.make = none) (hc : n.connect = none) :
    .starttls ∈ (send n { exCfg with ssl := .text "False".toList } s t).1 := by
  have h := (C115_host n { exCfg with ssl := .text "False".toList } s t).1 "mx".toList "25".toList (by decide +kernel) (by decide +kernel) (by decide +kernel) hn
  rw [h, steps_eq, hc]
  refine List.mem_cons_of_mem _ (List.mem_append_left _ ?_)
  rw [seen_cons_none]
  refine List.mem_append_right _ ?_
  have ht : tlsSteps n { exCfg with ssl := .text "False".toList } = [(some .starttls, match n.starttls with
      | .error e => some e
      | .ok code => if code = 220 then none else some .tls)] := by
    unfold tlsSteps
    rw [if_neg (by decide +kernel)]
  rw [ht, List.singleton_append]
  generalize (match n.starttls with
      | .error e => some e
      | .ok code => if code = 220 then none else some .tls : Option Exc) = r
  cases r with
  | none => rw [seen_cons_none]; exact List.mem_append_left _ (List.mem_cons_self ..)
  | some e => rw [seen_cons_some]; exact List.mem_cons_self ..

end Verif.Smtp
