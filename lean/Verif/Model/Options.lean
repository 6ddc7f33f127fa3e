import Verif.Py.Dict
import Verif.Model.Regex

/-!
# Options in brackets — `fail2ban/helpers.py` 321-358

`name[key=value, key="value"][key='value']`, as used for filters, actions, backends and log targets. Classes of characters are given by the environment.
-/

namespace Verif.Options

open Verif.Regex

/-- Classes of characters of module `re`. -/
structure Chars where
  /-- `\s`, also what `strip` removes -/
  space : Char → Bool
  /-- `\w` -/
  word : Char → Bool

/-- `[\w\-_\.]` -/
def isKey (cc : Chars) (c : Char) : Bool := cc.word c || c = '-' || c = '_' || c = '.'

/-- `s.strip()` -/
def strip (cc : Chars) (s : Str) : Str := ((s.dropWhile cc.space).reverse.dropWhile cc.space).reverse

/-- `\s*` -/
def spaces (cc : Chars) : Re := .star (.cls cc.space)

/-- `OPTION_CRE` (helpers.py 325): `^([^\[]+)(?:\[(.*)\])?\s*$` -/
def optionRe (cc : Chars) : Re :=
  .seq (.cap 1 (plus (.cls (fun c => c ≠ '[')))) (.seq (.opt (.seq (chr '[') (.seq (.cap 2 (.star any)) (chr ']')))) (.seq (spaces cc) .eos))

/-- `"([^"]*)"` and the like, group `n` -/
def quotedRe (q : Char) (n : Nat) : Re := .seq (chr q) (.seq (.cap n (.star (.cls (fun c => c ≠ q)))) (chr q))

/-- `(?:"([^"]*)"|'([^']*)'|([^,\]]*))` -/
def valueRe : Re := .alt (quotedRe '"' 2) (.alt (quotedRe '\'' 3) (.cap 4 (.star (.cls (fun c => c ≠ ',' && c ≠ ']')))))

/-- `\]\s*\[` -/
def nextGroupRe (cc : Chars) : Re := .seq (chr ']') (.seq (spaces cc) (chr '['))

/-- `(?:,|\]\s*\[|$|(?P<wrngA>.+))`, group 5 is `wrngA` -/
def afterRe (cc : Chars) : Re := .alt (chr ',') (.alt (nextGroupRe cc) (.alt .eos (.cap 5 (plus any))))

/-- First alternative of `OPTION_EXTRACT_CRE`: an option. -/
def itemRe (cc : Chars) : Re := .seq (spaces cc) (.seq (.cap 1 (plus (.cls (isKey cc)))) (.seq (chr '=') (.seq valueRe (afterRe cc))))

/-- `OPTION_EXTRACT_CRE` (helpers.py 330-331), group 6 is `wrngB` -/
def extractRe (cc : Chars) : Re := .alt (itemRe cc) (.alt (.seq (.opt (chr ',')) (.seq (spaces cc) .eos)) (.cap 6 (plus any)))

/-- `if group(n):` -/
def truthy (g : Option Str) : Bool :=
  match g with
  | some (_ :: _) => true
  | _ => false

/-- The loop over options (helpers.py 343-354); `none` is a ValueError. -/
def collect (cc : Chars) : List (Str × Caps) → Dict Str Str → Option (Dict Str Str)
  | [], d => some d
  | (_, m) :: ms, d =>
    if truthy (group 5 m) || truthy (group 6 m) then none
    else match group 1 m with
      | some (x :: xs) =>
        let value := ((group 2 m).or (group 3 m)).or (group 4 m)
        collect cc ms (d.insert (strip cc (x :: xs)) (strip cc (value.getD [])))
      | _ => collect cc ms d

/-- `extractOptions(option)` (helpers.py 336-355): name and options; `none` is a ValueError. -/
def extractOptions (cc : Chars) (option : Str) : Option (Str × Dict Str Str) :=
  match (optionRe cc).at option with
  | none => none
  | some (_, m) =>
    match group 2 m with
    | some (x :: xs) => (collect cc (matches_ (extractRe cc) (x :: xs)) Dict.empty).map (fun d => ((group 1 m).getD [], d))
    | _ => some ((group 1 m).getD [], Dict.empty)

/-- `key=value` in `OPTION_SPLIT_CRE`, without groups -/
def splitItemRe (cc : Chars) : Re :=
  .seq (plus (.cls (isKey cc))) (.seq (chr '=') (.seq valueRe (.seq (spaces cc) (.seq (.opt (.alt (chr ',') (nextGroupRe cc))) (spaces cc)))))

/-- `(?:\s*\[\s*(...)*\])?` in `OPTION_SPLIT_CRE` -/
def splitOptsRe (cc : Chars) : Re := .opt (.seq (spaces cc) (.seq (chr '[') (.seq (spaces cc) (.seq (.star (splitItemRe cc)) (chr ']')))))

/-- `OPTION_SPLIT_CRE` (helpers.py 333-334). The groups of `valueRe` do not occur in it, and are not looked at. -/
def splitRe (cc : Chars) : Re :=
  .seq (.alt (.seq (plus (.cls (fun c => c ≠ '[' && !cc.space c))) (.seq (splitOptsRe cc) (spaces cc))) (plus (.cls (fun c => !cc.space c))))
    (.ahead (.alt (.seq (chr '\n') (spaces cc)) (.alt (plus (.cls cc.space)) .eos)))

/-- `splitWithOptions(option)` (helpers.py 357-358) -/
def splitWithOptions (cc : Chars) (option : Str) : List Str := (matches_ (splitRe cc) option).map (·.1)

/-- All results, unless there is an exception. -/
def allSome {α β : Type} (f : α → Option β) : List α → Option (List β)
  | [] => some []
  | a :: as =>
    match f a, allSome f as with
    | some b, some bs => some (b :: bs)
    | _, _ => none

/-- Names and options of the actions of a jail (jailreader.py 186-195); `none` is a `JailDefError`. -/
def readNames (cc : Chars) (text : Str) : Option (List (Str × Dict Str Str)) :=
  allSome (extractOptions cc) (((splitWithOptions cc text).map (strip cc)).filter (fun a => !a.isEmpty))

/-- ASCII characters, for examples. -/
def ascii : Chars where
  space c := c ∈ [' ', '\t', '\n', '\r', '\x0b', '\x0c', '\x1c', '\x1d', '\x1e', '\x1f']
  word c := c.isAlphanum || c = '_'

end Verif.Options
