import Verif.Lemmas.IPAddr

/-! # A concrete `inet_pton`/`inet_ntop` satisfying the assumptions `Lawful`

IPv4 as in the C library; IPv6 texts are always written with eight groups of four hexadecimal digits. Used in the examples only, to
show that the assumptions can be met. -/

namespace Verif.IPAddr.Sample

open Verif Spec.IP

/-- one byte of a dotted quad: 1-3 digits, at most 255, no leading zero -/
def byte (s : Str) : Option Nat :=
  if isDig13 s && (decide (s.length = 1) || decide (s.head? ≠ some '0')) && decide (decNat s < 256) then some (decNat s) else none

/-- dotted quad to number -/
def pton4 (s : Str) : Option Nat :=
  match splitOn '.' s with
  | [a, b, c, d] =>
    match byte a, byte b, byte c, byte d with
    | some a, some b, some c, some d => some (((a * 256 + b) * 256 + c) * 256 + d)
    | _, _, _, _ => none
  | _ => none

/-- number to dotted quad -/
def ntop4 (a : Nat) : Str :=
  dec (a / 16777216 % 256) ++ '.' :: (dec (a / 65536 % 256) ++ '.' :: (dec (a / 256 % 256) ++ '.' :: dec (a % 256)))

/-- value of a hexadecimal digit -/
def hexVal (c : Char) : Option Nat :=
  if isDig c then some (c.toNat - 48) else if 'a' ≤ c ∧ c ≤ 'f' then some (c.toNat - 87) else none

/-- a group of four digits -/
def group (n : Nat) : Str := [Nat.digitChar (n / 4096 % 16), Nat.digitChar (n / 256 % 16), Nat.digitChar (n / 16 % 16), Nat.digitChar (n % 16)]

/-- `n + 1` groups -/
def groups : Nat → Nat → Str
  | 0, a => group (a % 65536)
  | n + 1, a => group (a / 65536 ^ (n + 1) % 65536) ++ ':' :: groups n a

/-- number to text -/
def ntop6 (a : Nat) : Str := groups 7 a

/-- parse `n + 1` groups, `acc` is the value so far -/
def parse : Nat → Nat → Str → Option Nat
  | n, acc, a :: b :: c :: d :: s =>
    match hexVal a, hexVal b, hexVal c, hexVal d with
    | some a, some b, some c, some d =>
      let v := acc * 65536 + (((a * 16 + b) * 16 + c) * 16 + d)
      match n, s with
      | 0, [] => some v
      | n + 1, ':' :: s => parse n v s
      | _, _ => none
    | _, _, _, _ => none
  | _, _, _ => none

/-- the functions -/
def lib : NetLib := { pton4, ntop4, ntop6, pton6 := parse 7 0 }

theorem byte_dec (n : Nat) (h : n < 256) : byte (dec n) = some n ∧ isDig13 (dec n) = true := by
  have : (List.range 256).all (fun n => byte (dec n) == some n && isDig13 (dec n)) = true := by decide +kernel
  have := List.all_eq_true.1 this n (by simp; exact h)
  simpa using this

theorem dec_noDot (n : Nat) : '.' ∉ dec n := by
  intro h
  have := List.all_eq_true.1 (dec_spec n).2.1 _ h
  revert this; decide

theorem split_ntop4 (a : Nat) : splitOn '.' (ntop4 a) =
    [dec (a / 16777216 % 256), dec (a / 65536 % 256), dec (a / 256 % 256), dec (a % 256)] := by
  unfold ntop4
  rw [splitOn_append _ _ _ (dec_noDot _), splitOn_append _ _ _ (dec_noDot _), splitOn_append _ _ _ (dec_noDot _),
    splitOn_clean _ _ (dec_noDot _)]

theorem hexVal_digit (n : Nat) (h : n < 16) : hexVal (Nat.digitChar n) = some n ∧ isHex (Nat.digitChar n) = true ∧
    Nat.digitChar n ≠ '.' := by
  have : ∀ n, n < 16 → hexVal (Nat.digitChar n) = some n ∧ isHex (Nat.digitChar n) = true ∧ Nat.digitChar n ≠ '.' := by decide
  exact this n h

theorem parse_groups (n acc a : Nat) : parse n acc (groups n a) = some (acc * 65536 ^ (n + 1) + a % 65536 ^ (n + 1)) := by
  have hd : ∀ x : Nat, hexVal (Nat.digitChar (x % 16)) = some (x % 16) := fun x => (hexVal_digit _ (Nat.mod_lt _ (by decide))).1
  induction n generalizing acc with
  | zero =>
    simp only [groups, group, parse, hd]
    congr 1
    omega
  | succ n ih =>
    have : groups (n + 1) a = Nat.digitChar (a / 65536 ^ (n + 1) % 65536 / 4096 % 16) ::
        Nat.digitChar (a / 65536 ^ (n + 1) % 65536 / 256 % 16) :: Nat.digitChar (a / 65536 ^ (n + 1) % 65536 / 16 % 16) ::
        Nat.digitChar (a / 65536 ^ (n + 1) % 65536 % 16) :: ':' :: groups n a := rfl
    rw [this]
    simp only [parse, hd]
    rw [ih]
    congr 1
    generalize hq : a / 65536 ^ (n + 1) = q
    have h1 : ((q % 65536 / 4096 % 16 * 16 + q % 65536 / 256 % 16) * 16 + q % 65536 / 16 % 16) * 16 + q % 65536 % 16 =
        q % 65536 := by omega
    rw [h1, Nat.add_mul, Nat.mul_assoc, Nat.add_assoc]
    have h2 : 65536 * 65536 ^ (n + 1) = 65536 ^ (n + 1 + 1) := by rw [Nat.pow_succ 65536 (n + 1), Nat.mul_comm]
    rw [h2]
    congr 1
    rw [Nat.pow_succ 65536 (n + 1), Nat.mod_mul, hq, Nat.mul_comm, Nat.add_comm]

theorem groups_chars (n a : Nat) : ∀ c ∈ groups n a, isHex c = true ∧ c ≠ '.' ∨ c = ':' := by
  have hg : ∀ x, ∀ c ∈ group x, isHex c = true ∧ c ≠ '.' := by
    intro x c hc
    have hd : ∀ y : Nat, isHex (Nat.digitChar (y % 16)) = true ∧ Nat.digitChar (y % 16) ≠ '.' :=
      fun y => (hexVal_digit _ (Nat.mod_lt _ (by decide))).2
    simp only [group, List.mem_cons, List.not_mem_nil, or_false] at hc
    rcases hc with rfl | rfl | rfl | rfl <;> exact hd _
  induction n with
  | zero => intro c hc; exact .inl (hg _ c hc)
  | succ n ih =>
    intro c hc
    simp only [groups, List.mem_append, List.mem_cons] at hc
    rcases hc with h | h | h
    · exact .inl (hg _ c h)
    · exact .inr h
    · exact ih c h

theorem mem_groupRest (x : Nat) (c : Char) (hc : c ≠ ':') (r : Str) : c :: r ∈ groupRest (group x ++ ':' :: c :: r) := by
  have hd : ∀ y : Nat, isHex (Nat.digitChar (y % 16)) = true := fun y => (hexVal_digit _ (Nat.mod_lt _ (by decide))).2.1
  unfold groupRest
  apply List.mem_append_left
  rw [List.mem_flatMap]
  refine ⟨':' :: c :: r, ?_, ?_⟩
  · simp [group, hexRest, hd]
  · split
    · simp_all
    · rename_i h1 h2; simp at h2; simp [h2]
    · rename_i h1 h2; exact absurd rfl (h2 _)

theorem groups_re (n a : Nat) : isIp6ReN n (groups (n + 1) a) = true := by
  have hd : ∀ y : Nat, isHex (Nat.digitChar (y % 16)) = true := fun y => (hexVal_digit _ (Nat.mod_lt _ (by decide))).2.1
  have hne : ∀ y : Nat, Nat.digitChar (y % 16) ≠ ':' := by
    intro y h
    have := hd y
    rw [h] at this
    revert this; decide
  have hcons : ∀ n, ∃ c r, groups n a = c :: r ∧ c ≠ ':' := by
    intro n
    cases n with
    | zero => exact ⟨_, _, rfl, hne _⟩
    | succ n => exact ⟨_, _, rfl, hne _⟩
  have hmem : ∀ n, groups n a ∈ groupRest (groups (n + 1) a) := by
    intro n
    obtain ⟨c, r, h1, h2⟩ := hcons n
    show _ ∈ groupRest (_ ++ ':' :: groups n a)
    rw [h1]
    exact mem_groupRest _ c h2 r
  induction n with
  | zero =>
    simp only [isIp6ReN]
    rw [List.any_eq_true]
    refine ⟨_, hmem 0, ?_⟩
    simp [groups, group, isTail, hd]
  | succ n ih =>
    simp only [isIp6ReN]
    rw [List.any_eq_true]
    exact ⟨_, hmem (n + 1), by rw [ih]; simp⟩

theorem lawful : Lawful lib where
  rt4 := by
    intro a ha
    show pton4 (ntop4 a) = some a
    unfold pton4
    rw [split_ntop4]
    dsimp only
    rw [(byte_dec _ (Nat.mod_lt _ (by decide))).1, (byte_dec _ (Nat.mod_lt _ (by decide))).1,
      (byte_dec _ (Nat.mod_lt _ (by decide))).1, (byte_dec _ (Nat.mod_lt _ (by decide))).1]
    dsimp only
    congr 1
    omega
  rt6 := by
    intro a ha
    show parse 7 0 (groups 7 a) = some a
    rw [parse_groups, Nat.mod_eq_of_lt]
    · simp
    · exact ha
  disj := by
    intro a _
    show pton4 (groups 7 a) = none
    unfold pton4
    rw [splitOn_clean]
    intro h
    rcases groups_chars 7 a _ h with h | h
    · exact h.2 rfl
    · cases h
  re4 := by
    intro a _
    show isIp4Re (ntop4 a) = true
    unfold isIp4Re
    rw [split_ntop4]
    simp [(byte_dec _ (Nat.mod_lt _ (by decide : 0 < 256))).2]
  re6 := by
    intro a _ _ _
    exact groups_re 6 a
  clean4 := by
    intro a _ c hc
    replace hc : c ∈ ntop4 a := hc
    have hd : ∀ n, ∀ c ∈ dec n, isHex c = true := by
      intro n c hc
      have := List.all_eq_true.1 (dec_spec n).2.1 c hc
      simp [isHex, this]
    simp only [ntop4, List.mem_append, List.mem_cons] at hc
    rcases hc with h | h | h | h | h | h | h <;> first | exact .inl (hd _ _ h) | exact .inr (.inl h)
  clean6 := by
    intro a _ c hc
    rcases groups_chars 7 a c hc with h | h
    · exact .inl h.1
    · exact .inr (.inr h)

end Verif.IPAddr.Sample
