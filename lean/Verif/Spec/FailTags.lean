import Verif.Model.FailTags

/-!
# Tags of regular expressions — what is expected

An expression as it is meant: text, addresses, and groups with a name.
-/

namespace Verif.FailTagsSpec

open Verif.FailTags

/-- Tags that stand for a fixed expression. -/
inductive Fixed
  | ip4
  | ip6
  | addr
  | cidr
  | subnet
  | dns
  | id
  | port
  deriving DecidableEq

/-- An expression. Names of groups are written in capital letters. -/
inductive Pat
  | text (s : Str)
  | host
  | fixed (f : Fixed)
  | self (f : Fixed)
  | lines
  | group (name : Str) (body : Pat)
  | other (t : Str)
  | seq (a b : Pat)

/-- The name of such a tag. -/
def Fixed.name : Fixed → Str
  | .ip4 => "IP4".toList
  | .ip6 => "IP6".toList
  | .addr => "ADDR".toList
  | .cidr => "CIDR".toList
  | .subnet => "SUBNET".toList
  | .dns => "DNS".toList
  | .id => "ID".toList
  | .port => "PORT".toList

def tag (t : Str) : Str := "<".toList ++ t ++ ">".toList

/-- How it is written in a filter. -/
def write : Pat → Str
  | .text s => s
  | .host => tag "HOST".toList
  | .fixed f => tag f.name
  | .self f => tag ("F-".toList ++ f.name ++ "/".toList)
  | .lines => tag "SKIPLINES".toList
  | .group n p => tag ("F-".toList ++ n) ++ write p ++ tag ("/F-".toList ++ n)
  | .other t => tag t
  | .seq a b => write a ++ write b

/-- A group of module `re`. -/
def re (name : Str) (body : Str) : Str := "(?P<".toList ++ name ++ ">".toList ++ body ++ ")".toList

/-- An address of IPv4, also as one of IPv6. -/
def v4 : Str := "(?:::f{4,6}:)?".toList ++ re "ip4".toList "(?:\\d{1,3}\\.){3}\\d{1,3}".toList

/-- An address of IPv6. -/
def v6 : Str := re "ip6".toList "(?:[0-9a-fA-F]{1,4}::?|:){1,7}(?:[0-9a-fA-F]{1,4}|(?<=:):)".toList

def length : Str := re "cidr".toList "\\d+".toList

/-- The expression such a tag stands for. -/
def Fixed.meaning : Fixed → Str
  | .ip4 => v4
  | .ip6 => v6
  | .addr => "\\[?(?:".toList ++ v4 ++ "|".toList ++ v6 ++ ")\\]?".toList
  | .cidr => length
  | .subnet => "\\[?(?:".toList ++ v4 ++ "|".toList ++ v6 ++ ")(?:/".toList ++ length ++ ")?\\]?".toList
  | .dns => re "dns".toList "[\\w\\-.^_]*\\w".toList
  | .id => re "fid".toList "\\S+".toList
  | .port => re "fport".toList "\\w+".toList

/-- The name of the group of a tag: small letters, and the groups for identifier and port have other names. -/
def groupName (n : Str) : Str :=
  if n.map Char.toLower = "id".toList then "fid".toList
  else if n.map Char.toLower = "port".toList then "fport".toList
  else n.map Char.toLower

/-- The expression given to module `re`, and the number of parts of skipped lines; `k` such parts are before it. -/
def meaning (dns : Bool) (k : Nat) : Pat → Str × Nat
  | .text s => (s, 0)
  | .host => (if dns then "(?:".toList ++ Fixed.addr.meaning ++ "|".toList ++ Fixed.dns.meaning ++ ")".toList else Fixed.addr.meaning, 0)
  | .fixed f => (f.meaning, 0)
  | .self f => (f.meaning, 0)
  | .lines => ("\\n".toList ++ re ("skiplines".toList ++ (toString k).toList) "(?:(?:.*\\n)*?)".toList, 1)
  | .group n p => (re (groupName n) (meaning dns k p).1, (meaning dns k p).2)
  | .other t => (tag t, 0)
  | .seq a b => ((meaning dns k a).1 ++ (meaning dns (k + (meaning dns k a).2) b).1, (meaning dns k a).2 + (meaning dns (k + (meaning dns k a).2) b).2)

/-- A name of a group as it is written in a tag. -/
def Name (n : Str) : Prop := n ≠ [] ∧ ∀ c ∈ n, c.isUpper = true ∨ c.isDigit = true ∨ c = '_' ∨ c = '-'

/-- The tags that mean something. -/
def Known (t : Str) : Prop :=
  t = "HOST".toList ∨ t = "SKIPLINES".toList ∨ (∃ f : Fixed, f ≠ .id ∧ f ≠ .port ∧ t = f.name) ∨ (∃ f : Fixed, t = "F-".toList ++ f.name ++ "/".toList) ∨
    ∃ n, Name n ∧ (t = "F-".toList ++ n ∨ t = "/F-".toList ++ n)

/-- Something between `<` and `>` that looks like a tag. -/
def Shape (t : Str) : Prop :=
  ∃ n : Str, n ≠ [] ∧ (∀ c ∈ n, c.isAlphanum = true ∨ c = '_' ∨ c = '-') ∧ (t = n ∨ t = "/".toList ++ n ∨ t = n ++ "/".toList ∨ t = "/".toList ++ n ++ "/".toList)

/-- Texts without `<`, names of groups of capital letters, digits, `_` and `-`; there are no tags for `id` and `port` alone. -/
def Good : Pat → Prop
  | .text s => '<' ∉ s
  | .fixed f => f ≠ .id ∧ f ≠ .port
  | .group n p => Name n ∧ Good p
  | .other t => Shape t ∧ ¬ Known t
  | .seq a b => Good a ∧ Good b
  | _ => True

end Verif.FailTagsSpec
