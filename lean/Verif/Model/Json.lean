/-!
# Data of bans in the database — `fail2ban/server/database.py` (42-67)

`_json_default`, `_json_dumps_safe`, `_json_loads_safe` with the part of the standard module `json` they use (`json/encoder.py`, `json/decoder.py`,
`json/scanner.py`, Python 3).

Simplifications: an encoding (`PREFER_ENC`) is the set of characters it can encode, decoding restores what was encoded. No floats: they never occur in the
data of tickets; a number with fraction or exponent is refused by the reader here. `\uXXXX` of surrogates is refused too (the writer never makes it).
Python objects contain no cycle. Messages to the log are left out.
-/

namespace Verif.Json

abbrev Text := List Char

/-- Keys of Python dictionaries -/
inductive Key where
  | str (s : Text)
  | int (i : Int)
  | bool (b : Bool)
  | none
  /-- a tuple, an address, ... -/
  | other
deriving DecidableEq

mutual
  /-- Python values -/
  inductive Val where
    | none
    | bool (b : Bool)
    | int (i : Int)
    | str (s : Text)
    /-- list or tuple -/
    | arr (l : Arr)
    | obj (d : Obj)
    /-- any other object (for instance a set), with `uni_string(x)`, for a set `uni_string(list(x))` -/
    | other (s : Text)
  inductive Arr where
    | nil
    | cons (v : Val) (l : Arr)
  inductive Obj where
    | nil
    | cons (k : Key) (v : Val) (d : Obj)
end

/-! ## Writing -/

/-- `'\\u{0:04x}'` of a control character (json/encoder.py 14-30) -/
def hex2 (n : Nat) : Text := ['\\', 'u', '0', '0', Nat.digitChar (n / 16), Nat.digitChar (n % 16)]

/-- Escape of a character, `ensure_ascii=False` (json/encoder.py 14-40) -/
def escape (c : Char) : Text :=
  if c = '"' then ['\\', '"']
  else if c = '\\' then ['\\', '\\']
  else if c = '\n' then ['\\', 'n']
  else if c = '\r' then ['\\', 'r']
  else if c = '\t' then ['\\', 't']
  else if c.toNat = 8 then ['\\', 'b']
  else if c.toNat = 12 then ['\\', 'f']
  else if c.toNat < 32 then hex2 c.toNat
  else [c]

/-- `py_encode_basestring(s)` (json/encoder.py 33-40) -/
def quote (s : Text) : Text := '"' :: (s.flatMap escape ++ ['"'])

/-- `int.__repr__` -/
def intText : Int → Text
  | .ofNat n => Nat.toDigits 10 n
  | .negSucc n => '-' :: Nat.toDigits 10 (n + 1)

/-- Keys (json/encoder.py, `_iterencode_dict`); `none`: `TypeError` -/
def keyText : Key → Option Text
  | .str s => some s
  | .int i => some (intText i)
  | .bool true => some "true".toList
  | .bool false => some "false".toList
  | .none => some "null".toList
  | .other => Option.none

/-- `item_separator`, if there is more -/
def Arr.sep : Arr → Text
  | .nil => []
  | .cons _ _ => [',', ' ']

def Obj.sep : Obj → Text
  | .nil => []
  | .cons _ _ _ => [',', ' ']

mutual
  /-- `json.dumps(x, ensure_ascii=False, default=_json_default)` (database.py 42-51); `none`: an exception -/
  def dump : Val → Option Text
    | .none => some "null".toList
    | .bool true => some "true".toList
    | .bool false => some "false".toList
    | .int i => some (intText i)
    | .str s => some (quote s)
    | .other s => some (quote s)
    | .arr l => match dumpArr l with
      | some t => some ('[' :: t)
      | Option.none => Option.none
    | .obj d => match dumpObj d with
      | some t => some ('{' :: t)
      | Option.none => Option.none
  /-- `_iterencode_list` after the bracket -/
  def dumpArr : Arr → Option Text
    | .nil => some [']']
    | .cons v l => match dump v, dumpArr l with
      | some a, some b => some (a ++ (l.sep ++ b))
      | _, _ => Option.none
  /-- `_iterencode_dict` after the brace -/
  def dumpObj : Obj → Option Text
    | .nil => some ['}']
    | .cons k v d => match keyText k, dump v, dumpObj d with
      | some x, some a, some b => some (quote x ++ (':' :: ' ' :: a ++ (d.sep ++ b)))
      | _, _, _ => Option.none
end

/-- `encode(PREFER_ENC, 'replace')`, and decoded again -/
def coded (can : Char → Bool) (t : Text) : Text := t.map (fun c => if can c then c else '?')

/-- `_json_dumps_safe(x)` (database.py 48-56), the bytes as the text they encode -/
def store (can : Char → Bool) (v : Val) : Text :=
  match dump v with
  | some t => coded can t
  | none => ['{', '}']

/-! ## Reading -/

/-- White space of JSON (json/decoder.py 136) -/
def isWs (c : Char) : Bool := c = ' ' || c = '\t' || c = '\n' || c = '\r'

def skip (s : Text) : Text := s.dropWhile isWs

/-- Value of a hexadecimal digit -/
def hexVal (c : Char) : Option Nat :=
  if '0' ≤ c ∧ c ≤ '9' then some (c.toNat - 48)
  else if 'a' ≤ c ∧ c ≤ 'f' then some (c.toNat - 87)
  else if 'A' ≤ c ∧ c ≤ 'F' then some (c.toNat - 55)
  else none

/-- `_decode_uXXXX` (json/decoder.py 60-67) and `chr` -/
def uni (a b c d : Char) : Option Char :=
  match hexVal a, hexVal b, hexVal c, hexVal d with
  | some w, some x, some y, some z =>
    let n := ((w * 16 + x) * 16 + y) * 16 + z
    if 0xd800 ≤ n ∧ n ≤ 0xdfff then none else some (Char.ofNat n)
  | _, _, _, _ => none

/-- `BACKSLASH` (json/decoder.py 54-57) -/
def backslash (c : Char) : Option Char :=
  if c = '"' then some '"'
  else if c = '\\' then some '\\'
  else if c = '/' then some '/'
  else if c = 'b' then some (Char.ofNat 8)
  else if c = 'f' then some (Char.ofNat 12)
  else if c = 'n' then some '\n'
  else if c = 'r' then some '\r'
  else if c = 't' then some '\t'
  else none

/-- Puts a character before a text that was read -/
def more (c : Option Char) (r : Option (Text × Text)) : Option (Text × Text) :=
  match c, r with
  | some c, some (a, b) => some (c :: a, b)
  | _, _ => none

/-- `scanstring(s, end, strict=True)` (json/decoder.py 69-126) after the quote: the string and what is left -/
def scanStr : Text → Option (Text × Text)
  | [] => none
  | '"' :: r => some ([], r)
  | '\\' :: 'u' :: a :: b :: c :: d :: r => more (uni a b c d) (scanStr r)
  | '\\' :: e :: r => more (backslash e) (scanStr r)
  | c :: r => if c.toNat < 32 then none else more (some c) (scanStr r)

/-- `NUMBER_RE` and `int` (json/scanner.py 14-16, 45-52), without floats -/
def scanNat (s : Text) : Option (Nat × Text) :=
  match s with
  | [] => none
  | c :: r =>
    let t : Text × Text := if c = '0' then (['0'], r) else (s.takeWhile Char.isDigit, s.dropWhile Char.isDigit)
    if t.1 = [] then none
    else match t.2 with
      | '.' :: _ => none
      | 'e' :: _ => none
      | 'E' :: _ => none
      | r' => some (Nat.ofDigitChars 10 t.1 0, r')

def scanNum (s : Text) : Option (Int × Text) :=
  match s with
  | '-' :: r => match scanNat r with
    | some (n, r') => some (-(n : Int), r')
    | none => none
  | _ => match scanNat s with
    | some (n, r') => some ((n : Int), r')
    | none => none

/-- `d[k] = v` -/
def Obj.set (d : Obj) (k : Text) (v : Val) : Obj :=
  match d with
  | .nil => .cons (.str k) v .nil
  | .cons k' v' d => if k' = .str k then .cons k' v d else .cons k' v' (d.set k v)

/-- `dict(pairs)` -/
def ofPairs (l : List (Text × Val)) : Obj := l.foldl (fun d p => d.set p.1 p.2) .nil

mutual
  /-- `_scan_once` (json/scanner.py 28-62) -/
  def scan : Nat → Text → Option (Val × Text)
    | 0, _ => none
    | n + 1, s =>
      match s with
      | '"' :: r => match scanStr r with
        | some (t, r') => some (.str t, r')
        | none => none
      | '{' :: r => match skip r with
        | '}' :: r' => some (.obj .nil, r')
        | '"' :: r' => match scanObj n r' with
          | some (l, r'') => some (.obj (ofPairs l), r'')
          | none => none
        | _ => none
      | '[' :: r => match skip r with
        | ']' :: r' => some (.arr .nil, r')
        | r' => match scanArr n r' with
          | some (l, r'') => some (.arr l, r'')
          | none => none
      | 'n' :: 'u' :: 'l' :: 'l' :: r => some (.none, r)
      | 't' :: 'r' :: 'u' :: 'e' :: r => some (.bool true, r)
      | 'f' :: 'a' :: 'l' :: 's' :: 'e' :: r => some (.bool false, r)
      | _ => match scanNum s with
        | some (i, r) => some (.int i, r)
        | none => none
  /-- `JSONArray` from its first value on (json/decoder.py 217-250) -/
  def scanArr : Nat → Text → Option (Arr × Text)
    | 0, _ => none
    | n + 1, s =>
      match scan n s with
      | none => none
      | some (v, r) => match skip r with
        | ']' :: r' => some (.cons v .nil, r')
        | ',' :: r' => match scanArr n (skip r') with
          | some (l, r'') => some (.cons v l, r'')
          | none => none
        | _ => none
  /-- `JSONObject` from the quote of its first key on (json/decoder.py 142-215) -/
  def scanObj : Nat → Text → Option (List (Text × Val) × Text)
    | 0, _ => none
    | n + 1, s =>
      match scanStr s with
      | none => none
      | some (k, r) => match skip r with
        | ':' :: r' => match scan n (skip r') with
          | none => none
          | some (v, r2) => match skip r2 with
            | '}' :: r3 => some ([(k, v)], r3)
            | ',' :: r3 => match skip r3 with
              | '"' :: r4 => match scanObj n r4 with
                | some (l, r5) => some ((k, v) :: l, r5)
                | none => none
              | _ => none
            | _ => none
        | _ => none
end

/-- `json.loads(s)` (json/__init__.py 299-, json/decoder.py 332-356); `none`: an exception -/
def loads (s : Text) : Option Val :=
  if s.head? = some (Char.ofNat 0xfeff) then none
  else match scan (s.length + 1) (skip s) with
    | some (v, r) => if skip r = [] then some v else none
    | none => none

/-- `_json_loads_safe(x)` (database.py 58-65) -/
def restore (s : Text) : Val :=
  match loads s with
  | some v => v
  | none => .obj .nil

/-! ## Use for tickets -/

/-- `data.get(k)` -/
def Obj.get : Obj → Text → Option Val
  | .nil, _ => none
  | .cons k v d, x => if k = .str x then some v else d.get x

/-- Strings of a list -/
def Arr.strings : Arr → Option (List Text)
  | .nil => some []
  | .cons (.str s) l => match l.strings with
    | some t => some (s :: t)
    | none => none
  | .cons _ _ => none

/-- A line of the matches: a text, or its parts (ticket.py 154-156); `none`: an exception (`"".join` of something else), other values are given as they are
and not described -/
def lineOf : Val → Option Text
  | .str s => some s
  | .arr l => l.strings.map List.flatten
  | _ => none

/-- `getMatches()` (ticket.py 154-156) of a list of matches -/
def Arr.lines : Arr → List (Option Text)
  | .nil => []
  | .cons v l => lineOf v :: l.lines

end Verif.Json
