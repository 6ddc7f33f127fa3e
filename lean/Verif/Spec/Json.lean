import Verif.Model.Json

/-!
# What comes back of Python data

Independent of the text in between: what a value should be after it was stored and read.
-/

namespace Verif.Json

/-- `d` without key `k` -/
def Obj.without : Obj → Text → Obj
  | .nil, _ => .nil
  | .cons k v d, x => if k = .str x then d.without x else .cons k v (d.without x)

/-- The entry put in front; a later entry of the same key wins -/
def Obj.front (d : Obj) (k : Text) (v : Val) : Obj := .cons (.str k) ((d.get k).getD v) (d.without k)

/-- A text, as far as the encoding has its characters -/
def shown (can : Char → Bool) : Text → Text
  | [] => []
  | c :: t => (if can c = true then c else '?') :: shown can t

/-- Name of a key -/
def keyName : Key → Text
  | .str s => s
  | .int i => i.repr.toList
  | .bool b => if b = true then ['t', 'r', 'u', 'e'] else ['f', 'a', 'l', 's', 'e']
  | .none => ['n', 'u', 'l', 'l']
  | .other => []

mutual
  /-- What comes back of a value: tuples as lists, unknown objects as their text, keys as texts -/
  def back (can : Char → Bool) : Val → Val
    | .none => .none
    | .bool b => .bool b
    | .int i => .int i
    | .str s => .str (shown can s)
    | .other s => .str (shown can s)
    | .arr l => .arr (backArr can l)
    | .obj d => .obj (backObj can d)
  def backArr (can : Char → Bool) : Arr → Arr
    | .nil => .nil
    | .cons v l => .cons (back can v) (backArr can l)
  def backObj (can : Char → Bool) : Obj → Obj
    | .nil => .nil
    | .cons k v d => (backObj can d).front (shown can (keyName k)) (back can v)
end

mutual
  /-- All keys, at any depth, are of types JSON knows -/
  def Storable : Val → Prop
    | .arr l => StorableArr l
    | .obj d => StorableObj d
    | _ => True
  def StorableArr : Arr → Prop
    | .nil => True
    | .cons v l => Storable v ∧ StorableArr l
  def StorableObj : Obj → Prop
    | .nil => True
    | .cons k v d => k ≠ .other ∧ Storable v ∧ StorableObj d
end

/-- `k` is no key of `d` -/
def Obj.Fresh (k : Text) : Obj → Prop
  | .nil => True
  | .cons k' _ d => k' ≠ .str k ∧ d.Fresh k

mutual
  /-- Plain data: texts the encoding has, numbers, truth values, `None`, lists, dictionaries with text as keys, each once -/
  def Plain (can : Char → Bool) : Val → Prop
    | .str s => ∀ c ∈ s, can c = true
    | .arr l => PlainArr can l
    | .obj d => PlainObj can d
    | .other _ => False
    | _ => True
  def PlainArr (can : Char → Bool) : Arr → Prop
    | .nil => True
    | .cons v l => Plain can v ∧ PlainArr can l
  def PlainObj (can : Char → Bool) : Obj → Prop
    | .nil => True
    | .cons k v d => (∃ s, k = .str s ∧ (∀ c ∈ s, can c = true) ∧ d.Fresh s) ∧ Plain can v ∧ PlainObj can d
end

/-- The last value stored for a name -/
def Obj.lastNamed (can : Char → Bool) : Obj → Text → Option Val
  | .nil, _ => none
  | .cons k v d, x => match d.lastNamed can x with
    | some w => some w
    | none => if shown can (keyName k) = x then some v else none

end Verif.Json
