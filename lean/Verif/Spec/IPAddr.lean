import Verif.Model.IPAddr

/-! # Vocabulary for the properties of addresses -/

namespace Verif.Spec.IP

open Verif

/-- The first `n` bits (from the most significant one) of two `w`-bit numbers agree. -/
def SamePrefix (w n a b : Nat) : Prop := ∀ i, i < n → i < w → a.testBit (w - 1 - i) = b.testBit (w - 1 - i)

/-- `m` is the `w`-bit netmask consisting of `n` one bits followed by zero bits. -/
def IsMask (w n m : Nat) : Prop := n ≤ w ∧ m < 2 ^ w ∧ ∀ i, i < w → (m.testBit (w - 1 - i) = true ↔ i < n)

/-- What is assumed about the C library functions `inet_pton` and `inet_ntop`: text made from a number is parsed to this number, the
texts of the families differ, they consist of hexadecimal digits, dots and colons, an IPv4 text is a dotted quad and an IPv6 text is
hexadecimal groups and colons, unless the upper 96 bits are 0 or those of the IPv4-mapped addresses (then a dotted quad may be
embedded). -/
structure Lawful (lib : NetLib) : Prop where
  rt4 : ∀ a, a < 2 ^ 32 → lib.pton4 (lib.ntop4 a) = some a
  rt6 : ∀ a, a < 2 ^ 128 → lib.pton6 (lib.ntop6 a) = some a
  disj : ∀ a, a < 2 ^ 128 → lib.pton4 (lib.ntop6 a) = none
  re4 : ∀ a, a < 2 ^ 32 → IPAddr.isIp4Re (lib.ntop4 a) = true
  re6 : ∀ a, a < 2 ^ 128 → a / 2 ^ 32 ≠ 0 → a / 2 ^ 32 ≠ 0xFFFF → IPAddr.isIp6Re (lib.ntop6 a) = true
  clean4 : ∀ a, a < 2 ^ 32 → ∀ c ∈ lib.ntop4 a, IPAddr.isHex c = true ∨ c = '.' ∨ c = ':'
  clean6 : ∀ a, a < 2 ^ 128 → ∀ c ∈ lib.ntop6 a, IPAddr.isHex c = true ∨ c = '.' ∨ c = ':'

end Verif.Spec.IP
