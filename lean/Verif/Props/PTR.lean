import Verif.Lemmas.NetLibSample

/-! # Reverse DNS names and hexadecimal form of addresses (C51) -/

namespace Verif

open IPAddr

namespace IPAddr

theorem hexPad_one (a : Nat) (h : a < 16) : hexPad 1 a = [Nat.digitChar a] := by
  unfold hexPad
  rw [Nat.toDigits_of_lt_base h]
  rfl

theorem hexPad_succ (n a : Nat) (h : 1 ≤ n) : hexPad (n + 1) a = hexPad n (a / 16) ++ [Nat.digitChar (a % 16)] := by
  unfold hexPad
  dsimp only
  by_cases ha : a < 16
  · rw [Nat.toDigits_of_lt_base ha, Nat.div_eq_of_lt ha, Nat.mod_eq_of_lt ha, Nat.toDigits_zero]
    simp only [List.length_cons, List.length_nil]
    have h1 : n + 1 - (0 + 1) = (n - (0 + 1)) + 1 := by omega
    rw [h1, List.replicate_succ']
  · rw [Nat.toDigits_of_base_le (by decide) (by omega)]
    simp only [List.length_append, List.length_cons, List.length_nil]
    have h1 : n + 1 - ((Nat.toDigits 16 (a / 16)).length + (0 + 1)) = n - (Nat.toDigits 16 (a / 16)).length := by omega
    rw [h1, List.append_assoc]

theorem hexPad_reverse (n a : Nat) (h : 1 ≤ n) (ha : a < 16 ^ n) :
    (hexPad n a).reverse = (List.range n).map (fun i => Nat.digitChar (a / 16 ^ i % 16)) := by
  induction n generalizing a with
  | zero => omega
  | succ n ih =>
    cases n with
    | zero =>
      rw [hexPad_one a (by simpa using ha)]
      have : a % 16 = a := Nat.mod_eq_of_lt (by simpa using ha)
      simp [List.range_succ, this]
    | succ n =>
      have ha' : a / 16 < 16 ^ (n + 1) := by
        rw [Nat.div_lt_iff_lt_mul (by decide)]
        rw [Nat.pow_succ] at ha; exact ha
      rw [hexPad_succ _ _ (by omega), List.reverse_append, ih (a / 16) (by omega) ha', List.range_succ_eq_map (n := n + 1), List.map_cons,
        List.map_map]
      simp only [List.reverse_cons, List.reverse_nil, List.nil_append, List.singleton_append, Nat.pow_zero, Nat.div_one]
      congr 1
      apply List.map_congr_left
      intro i _
      simp only [Function.comp]
      rw [Nat.div_div_eq_div_mul, Nat.pow_succ, Nat.mul_comm]

theorem splitOn_none (c : Char) (s : Str) (h : c ∉ s) : splitOn c s = [s] := by
  induction s with
  | nil => rfl
  | cons a s ih =>
    simp only [List.mem_cons, not_or] at h
    simp only [splitOn]
    rw [ih h.2]
    dsimp only
    rw [if_neg (fun e => h.1 e.symm)]

theorem splitOn_join (c : Char) (ls : List Str) (h0 : ls ≠ []) (h : ∀ l ∈ ls, c ∉ l) : splitOn c (join [c] ls) = ls := by
  induction ls with
  | nil => exact absurd rfl h0
  | cons a ls ih =>
    cases ls with
    | nil => exact splitOn_none c a (h a (by simp))
    | cons b ls =>
      show splitOn c (a ++ [c] ++ join [c] (b :: ls)) = _
      rw [List.append_assoc, List.singleton_append, splitOn_append c a _ (h a (by simp)),
        ih (by simp) (fun l hl => h l (by simp [hl]))]

end IPAddr

/-- **C51 (IPv4).** The reverse DNS name of an IPv4 address consists of the dot separated parts of its text in reversed order,
followed by `.in-addr.arpa.` -/
theorem C51_ptr4 (lib : NetLib) (x : IPAddr) (hx : x.family = .inet) (ls : List Str) (h0 : ls ≠ []) (hd : ∀ l ∈ ls, '.' ∉ l)
    (h : x.ntoa lib = List.intercalate ['.'] ls) :
    x.getPTR lib = List.intercalate ['.'] ls.reverse ++ ".in-addr.arpa.".toList := by
  have hj : ∀ m : List Str, List.intercalate ['.'] m = join ['.'] m := by
    intro m
    induction m with
    | nil => rfl
    | cons a m ih =>
      cases m with
      | nil => simp [List.intercalate, List.intersperse, join]
      | cons b m =>
        show List.flatten (List.intersperse ['.'] (a :: b :: m)) = a ++ ['.'] ++ join ['.'] (b :: m)
        rw [← ih]
        simp [List.intercalate, List.intersperse]
  rw [hj] at h ⊢
  unfold getPTR
  rw [hx]
  dsimp only
  rw [h, splitOn_join _ _ h0 hd]

/-- **C51 (IPv6).** The reverse DNS name of an IPv6 address consists of its 32 hexadecimal digits from the least significant one on,
separated by dots, followed by `.ip6.arpa.`; of a text that is no address it is empty. -/
theorem C51_ptr6 (lib : NetLib) (x : IPAddr) (ha : x.addr < 2 ^ 128) :
    (x.family = .inet6 → x.getPTR lib =
      List.intercalate ['.'] ((List.range 32).map (fun i => [Nat.digitChar (x.addr / 16 ^ i % 16)])) ++ ".ip6.arpa.".toList) ∧
    (x.family = .unspec ∨ x.family = .raw → x.getPTR lib = []) := by
  constructor
  · intro hx
    have hr : x.hexdump.reverse = (List.range 32).map (fun i => Nat.digitChar (x.addr / 16 ^ i % 16)) := by
      unfold hexdump
      rw [hx]
      exact hexPad_reverse 32 x.addr (by omega) ha
    unfold getPTR
    rw [hx]
    dsimp only
    rw [hr, List.map_map]
    have hj : ∀ m : List Str, List.intercalate ['.'] m = join ['.'] m := by
      intro m
      induction m with
      | nil => rfl
      | cons a m ih =>
        cases m with
        | nil => simp [List.intercalate, List.intersperse, join]
        | cons b m =>
          show List.flatten (List.intersperse ['.'] (a :: b :: m)) = a ++ ['.'] ++ join ['.'] (b :: m)
          rw [← ih]
          simp [List.intercalate, List.intersperse]
    rw [hj]
    rfl
  · intro hx
    unfold getPTR
    rcases hx with hx | hx <;> rw [hx]

/-- **C51 (hexadecimal).** The hexadecimal form has 8 (IPv4) or 32 (IPv6) digits, digit `i` from the right being that of `16 ^ i`. -/
theorem C51_hex (x : IPAddr) :
    (x.family = .inet → x.addr < 2 ^ 32 →
      x.hexdump.reverse = (List.range 8).map (fun i => Nat.digitChar (x.addr / 16 ^ i % 16))) ∧
    (x.family = .inet6 → x.addr < 2 ^ 128 →
      x.hexdump.reverse = (List.range 32).map (fun i => Nat.digitChar (x.addr / 16 ^ i % 16))) ∧
    (x.family = .unspec ∨ x.family = .raw → x.hexdump = []) := by
  refine ⟨fun hx ha => ?_, fun hx ha => ?_, fun hx => ?_⟩
  · unfold hexdump; rw [hx]; exact hexPad_reverse 8 x.addr (by omega) ha
  · unfold hexdump; rw [hx]; exact hexPad_reverse 32 x.addr (by omega) ha
  · unfold hexdump; rcases hx with hx | hx <;> rw [hx]

/-- **C51 (order).** Comparison: an address of a family with smaller number (a raw text, then unresolved text, then IPv4, then IPv6)
is less; within a family the number decides. -/
theorem C51_order (x y : IPAddr) (h : x.family = y.family) : x.lt y = true ↔ x.addr < y.addr := by
  simp [lt, h]

/-- **C51 (order, refuted).** Across families the comparison is no order: both `a < b` and `b < a` hold for the IPv4 address 1.1.1.1 and the IPv6
address ::1. -/
theorem C51_refuted_order : ∃ a b : IPAddr, a.family = .inet ∧ b.family = .inet6 ∧ a.lt b = true ∧ b.lt a = true :=
  ⟨⟨.inet, 0x01010101, 32, []⟩, ⟨.inet6, 1, 128, []⟩, by decide⟩

example : (init4 [] 0x01020304 .unspec).getPTR Sample.lib = "4.3.2.1.in-addr.arpa.".toList ∧
    (init6 [] 0x20010db8000000000000000000000001 .unspec).getPTR Sample.lib =
      "1.0.0.0.0.0.0.0.0.0.0.0.0.0.0.0.0.0.0.0.0.0.0.0.8.b.d.0.1.0.0.2.ip6.arpa.".toList ∧
    (init4 [] 0x01020304 .unspec).hexdump = "01020304".toList ∧
    (init4 [] 1 .unspec).lt (init4 [] 2 .unspec) = true := by decide +kernel

end Verif
