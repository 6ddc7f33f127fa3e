import Verif.Model.Options

/-!
# What options in brackets mean

The grammar of `name[key=value, ...][...]`, without regular expressions.
-/

namespace Verif.OptionsSpec

open Verif.Options (Chars)
open Verif.Regex (Str)

/-- What is known about classes of characters: newline is white space, no character that has a meaning in options is white space or a letter, and no letter is white space. -/
structure Sane (cc : Chars) : Prop where
  newline : cc.space '\n' = true
  disjoint : ∀ c, cc.space c = true → cc.word c = false
  space : ∀ c ∈ ['=', '"', '\'', ',', '[', ']', '-', '_', '.'], cc.space c = false
  word : ∀ c ∈ ['=', '"', '\'', ',', '[', ']'], cc.word c = false

/-- White space only. -/
def Blank (cc : Chars) (s : Str) : Prop := ∀ c ∈ s, cc.space c = true

/-- Name of an option. -/
def Key (cc : Chars) (s : Str) : Prop := s ≠ [] ∧ ∀ c ∈ s, cc.word c = true ∨ c = '-' ∨ c = '_' ∨ c = '.'

def IsQuote (q : Char) : Prop := q = '"' ∨ q = '\''

/-- The text begins with something in quotes. -/
def BeginsQuoted (s : Str) : Prop := ∃ q u w, IsQuote q ∧ s = q :: (u ++ q :: w)

/-- A text begins with a value; what comes after it. -/
inductive Value : Str → Str → Str → Prop where
  | quoted (q : Char) (v w : Str) : IsQuote q → q ∉ v → Value (q :: (v ++ q :: w)) v w
  | bare (v w : Str) : ',' ∉ v → ']' ∉ v → (∀ x xs, w = x :: xs → x = ',' ∨ x = ']') → ¬BeginsQuoted (v ++ w) → Value (v ++ w) v w

/-- What may follow a value, and where the next option begins. -/
inductive Sep (cc : Chars) : Str → Str → Prop where
  | comma (w : Str) : Sep cc (',' :: w) w
  | group (b w : Str) : Blank cc b → Sep cc (']' :: (b ++ '[' :: w)) w
  | last : Sep cc [] []
  | newline : Sep cc ['\n'] ['\n']

/-- A text is another one with white space around it. -/
def Trimmed (cc : Chars) (s t : Str) : Prop :=
  ∃ a b, Blank cc a ∧ Blank cc b ∧ s = a ++ t ++ b ∧ (∀ x, t.head? = some x → cc.space x = false) ∧ ∀ x, t.getLast? = some x → cc.space x = false

/-- What is between the brackets. -/
inductive OptionList (cc : Chars) : Str → List (Str × Str) → Prop where
  | none (b : Str) : Blank cc b → OptionList cc b []
  | comma (b : Str) : Blank cc b → OptionList cc (',' :: b) []
  | item (b key t v v' w r : Str) (os : List (Str × Str)) : Blank cc b → Key cc key → Value t v w → Trimmed cc v v' → Sep cc w r → OptionList cc r os →
      OptionList cc (b ++ (key ++ '=' :: t)) ((key, v') :: os)

/-- A name, perhaps with options. -/
inductive Shape (cc : Chars) : Str → Str → List (Str × Str) → Prop where
  | name (n : Str) : n ≠ [] → '[' ∉ n → Shape cc n n []
  | options (n o b : Str) (os : List (Str × Str)) : n ≠ [] → '[' ∉ n → Blank cc b → OptionList cc o os → Shape cc (n ++ '[' :: (o ++ ']' :: b)) n os

/-- The value of an option is the last one given. -/
def lastValue (k : Str) : List (Str × Str) → Option Str
  | [] => none
  | (x, v) :: os => (lastValue k os).or (if x = k then some v else none)

/-! ## Several names with options -/

/-- A value as it is written: in quotes, or without comma, closing bracket and quotes around it. -/
inductive Written : Str → Str → Prop where
  | quoted (q : Char) (v : Str) : IsQuote q → q ∉ v → Written (q :: (v ++ [q])) v
  | bare (v : Str) : ',' ∉ v → ']' ∉ v → (∀ q, v.head? = some q → ¬IsQuote q) → Written v v

/-- Options as they are written, separated by comma or as groups in brackets. -/
inductive Items (cc : Chars) : Str → List (Str × Str) → Prop where
  | none (b : Str) : Blank cc b → Items cc b []
  | last (b key t v v' : Str) : Blank cc b → Key cc key → Written t v → Trimmed cc v v' → Items cc (b ++ (key ++ '=' :: t)) [(key, v')]
  | comma (b key t v v' r : Str) (os : List (Str × Str)) : Blank cc b → Key cc key → Written t v → Trimmed cc v v' → Items cc r os →
      Items cc (b ++ (key ++ '=' :: (t ++ ',' :: r))) ((key, v') :: os)
  | group (b key t v v' b' r : Str) (os : List (Str × Str)) : Blank cc b → Key cc key → Written t v → Trimmed cc v v' → Blank cc b' → Items cc r os →
      Items cc (b ++ (key ++ '=' :: (t ++ ']' :: (b' ++ '[' :: r)))) ((key, v') :: os)

/-- Name without white space. -/
def Name (cc : Chars) (n : Str) : Prop := n ≠ [] ∧ '[' ∉ n ∧ ∀ c ∈ n, cc.space c = false

/-- A name, perhaps with options, as it is written. -/
inductive Entry (cc : Chars) : Str → Str → List (Str × Str) → Prop where
  | name (n : Str) : Name cc n → Entry cc n n []
  | options (n o : Str) (os : List (Str × Str)) : Name cc n → Items cc o os → Entry cc (n ++ '[' :: (o ++ [']'])) n os

/-- Several entries, separated by white space (newlines in most cases). -/
inductive Entries (cc : Chars) : Str → List (Str × List (Str × Str)) → Prop where
  | nil (b : Str) : Blank cc b → Entries cc b []
  | last (b a n : Str) (os : List (Str × Str)) : Blank cc b → Entry cc a n os → Entries cc (b ++ a) [(n, os)]
  | cons (b a n : Str) (os : List (Str × Str)) (x : Char) (s : Str) (es : List (Str × List (Str × Str))) : Blank cc b → Entry cc a n os → cc.space x = true →
      Entries cc (x :: s) es → Entries cc (b ++ (a ++ x :: s)) ((n, os) :: es)

/-- A text consists of parts, in order, with only white space between them. -/
inductive Parts (cc : Chars) : Str → List Str → Prop where
  | nil (b : Str) : Blank cc b → Parts cc b []
  | cons (b p s : Str) (ps : List Str) : Blank cc b → (∃ x xs, p = x :: xs ∧ cc.space x = false) → Parts cc s ps → Parts cc (b ++ (p ++ s)) (p :: ps)

end Verif.OptionsSpec
