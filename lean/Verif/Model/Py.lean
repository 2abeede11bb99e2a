/-
Python primitives used by the library, as total Lean functions.
Strings are lists of characters; exceptions are values.
-/
namespace Verif

/-- A Python `str` is modelled as its list of code points. -/
abbrev Str := List Char

/-- `c!"abc"` is the character list `['a', 'b', 'c']` (a literal Python `str`). -/
syntax:max (name := charsLit) "c!" str : term
open Lean in
macro_rules
  | `(c! $s:str) => do
    let cs := s.getString.toList.map (fun c => Syntax.mkCharLit c)
    `(([$(cs.toArray),*] : List Char))

/-- The exceptions the modelled code can raise (`subgroups/exceptions.py` and the Python built-ins). -/
inductive PyErr
  | typeError
  | valueError
  | keyError
  | indexError
  | attributeError
  | zeroDivisionError
  /-- `SubgroupParameterNotFoundError` / `ParameterNotFoundError`, with the parameter name -/
  | parameterNotFound
  /-- `InconsistentMethodParametersError` -/
  | inconsistentParameters
  /-- `FileNotFoundError`, of `open(path, "r")` -/
  | fileNotFound
  /-- `VerticalListSizeError` -/
  | verticalListSize
  /-- `DatasetAttributeTypeError` -/
  | datasetAttributeType
  /-- `OverflowError`, of `int / int` and of `int * float` -/
  | overflowError
  deriving DecidableEq, Repr

/-- Python's `<` on `str`: lexicographic by code point. -/
def strLt : Str → Str → Bool
  | [], [] => false
  | [], _ :: _ => true
  | _ :: _, [] => false
  | a :: as, b :: bs => if a = b then strLt as bs else decide (a < b)

/-- The loop of `bisect.bisect_left` / of CPython's binary insertion sort: binary search for the first
position of `[lo, hi)` at which `p` fails. `bisect_left(a, x)` is the instance `p i = (a[i] < x)`. -/
def bisectLoop (p : Nat → Bool) (lo hi : Nat) : Nat :=
  if _h : lo < hi then
    let mid := (lo + hi) / 2
    if p mid then bisectLoop p (mid + 1) hi else bisectLoop p lo mid
  else lo
termination_by hi - lo
decreasing_by all_goals omega

/-- `bisect.bisect_left(a, x)` with the comparison `lt` (`a[mid] < x`). -/
def bisectLeft {α : Type} (lt : α → α → Bool) (a : List α) (x : α) : Nat :=
  bisectLoop (fun i => match a[i]? with | some y => lt y x | none => false) 0 a.length

/-- One step of CPython's `binarysort` (`Objects/listobject.c`): insert `x` in the sorted prefix `a`,
after the elements that are not greater (`pivot < a[mid]` decides). -/
def binaryInsert {α : Type} (lt : α → α → Bool) (a : List α) (x : α) : List α :=
  a.insertIdx (bisectLoop (fun i => match a[i]? with | some y => !(lt x y) | none => false) 0 a.length) x

/-- the rest of a run after `prev`: the elements that go on as long as each one is (`down`) or is not (`not down`) smaller than the one before, and what follows -/
def takeRun {α : Type} (lt : α → α → Bool) (down : Bool) (prev : α) : List α → List α × List α
  | [] => ([], [])
  | x :: xs => if lt x prev == down then (x :: (takeRun lt down x xs).1, (takeRun lt down x xs).2) else ([], x :: xs)

/-- `count_run` of CPython 3.11 and 3.12 (`Objects/listobject.c`): the run at the beginning of the list, reversed if it decreases, and the rest -/
def countRun {α : Type} (lt : α → α → Bool) : List α → List α × List α
  | [] => ([], [])
  | [a] => ([a], [])
  | a :: b :: l =>
    if lt b a then ((a :: (takeRun lt true a (b :: l)).1).reverse, (takeRun lt true a (b :: l)).2)
    else (a :: (takeRun lt false a (b :: l)).1, (takeRun lt false a (b :: l)).2)

/-- `list.sort()`: CPython sorts lists of fewer than 64 elements by binary insertion after the first run. Simplification: longer lists are
merge-sorted in runs; when `<` agrees with an order, every stable sort gives the same list (proved:
`C06_any_sort`, `C06_sort_exists`), and the positive theorems use this function only then. -/
def pySort {α : Type} (lt : α → α → Bool) (l : List α) : List α :=
  (countRun lt l).2.foldl (binaryInsert lt) (countRun lt l).1

/-- insertion of an element in front of the first element that is not smaller -/
def sortedInsert {α : Type} (le : α → α → Bool) (a : α) : List α → List α
  | [] => [a]
  | b :: l => if le a b then a :: b :: l else b :: sortedInsert le a l

/-- `sorted(l, key=k)` with a rational / natural / integer key: stable ascending sort by insertion
(every stable sort gives the same list). `le a b` is `k a <= k b`. -/
def stableSort {α : Type} (le : α → α → Bool) (l : List α) : List α := l.foldr (sortedInsert le) []

/-- Resolution of a Python index (negative indexes count from the end): `some i` with `i < n`, or `none`
for `IndexError`. -/
def pyIndex (n : Nat) (i : Int) : Option Nat :=
  if 0 ≤ i then (if i.toNat < n then some i.toNat else none)
  else if 0 ≤ i + n then some (i + n).toNat else none

/-- Split at the first character satisfying `p`: `(before, some after)`, or `(s, none)` when there is none. -/
def splitFirst (p : Char → Bool) : Str → Str × Option Str
  | [] => ([], none)
  | x :: xs =>
    if p x then ([], some xs)
    else let r := splitFirst p xs; (x :: r.1, r.2)

/-- `s.startswith(p)` returning the rest. -/
def dropPrefix? : (p s : Str) → Option Str
  | [], s => some s
  | _ :: _, [] => none
  | a :: as, b :: bs => if a = b then dropPrefix? as bs else none

/-- `s.split(sep)` for a non-empty separator `sep`: scan from the left, cut at each non-overlapping
occurrence. `acc` is the current piece, reversed. -/
def splitOnAux (sep : Str) : Nat → Str → Str → List Str
  | 0, s, acc => [acc.reverse ++ s]
  | _ + 1, [], acc => [acc.reverse]
  | fuel + 1, c :: cs, acc =>
    match dropPrefix? sep (c :: cs) with
    | some rest => acc.reverse :: splitOnAux sep fuel rest []
    | none => splitOnAux sep fuel cs (c :: acc)

/-- `s.split(sep)` (the fuel `s.length + 1` is never exhausted for a non-empty separator). -/
def splitOn (sep s : Str) : List Str := splitOnAux sep (s.length + 1) s []

/-- Decimal digit character. -/
def digitChar (d : Nat) : Char := Char.ofNat (48 + d)

/-- `str(n)` for a natural number. -/
def natStr (n : Nat) : Str :=
  if n < 10 then [digitChar n] else natStr (n / 10) ++ [digitChar (n % 10)]
termination_by n
decreasing_by omega

/-- `str(z)` for a Python `int`. -/
def intStr : Int → Str
  | .ofNat n => natStr n
  | .negSucc n => '-' :: natStr (n + 1)

/-- value of an ASCII decimal digit -/
def digitVal? (c : Char) : Option Nat :=
  if 48 ≤ c.toNat ∧ c.toNat ≤ 57 then some (c.toNat - 48) else none

/-- digits, most significant first, accumulated on `acc`; `none` if some character is no digit -/
def parseDigitsAux : Nat → Str → Option Nat
  | acc, [] => some acc
  | acc, c :: cs => match digitVal? c with
    | some d => parseDigitsAux (acc * 10 + d) cs
    | none => none

/-- a non-empty sequence of ASCII digits -/
def parseNat : Str → Option Nat
  | [] => none
  | c :: cs => parseDigitsAux 0 (c :: cs)

/-- an integer literal: optional sign and digits -/
def readInt : Str → Option Int
  | '-' :: cs => (parseNat cs).map (fun n : Nat => -(n : Int))
  | '+' :: cs => (parseNat cs).map (fun n : Nat => (n : Int))
  | cs => (parseNat cs).map (fun n : Nat => (n : Int))

/-- the blanks of ASCII -/
def isBlank (c : Char) : Bool := c ∈ [' ', '\t', '\n', '\x0b', '\x0c', '\r']

/-- without the blanks at both ends -/
def stripBlank (s : Str) : Str := ((s.dropWhile isBlank).reverse.dropWhile isBlank).reverse

/-- without underscores; `none` unless each of them stands between two digits. `prev` tells whether the character before is a digit. -/
def dropUnderscores : Bool → Str → Option Str
  | _, [] => some []
  | prev, c :: cs =>
    if c = '_' then
      if prev && (cs.head?.bind digitVal?).isSome then dropUnderscores false cs else none
    else (dropUnderscores (digitVal? c).isSome cs).map (c :: ·)

/-- the blanks beyond ASCII (`str.isspace` of one character) -/
def unicodeBlanks : List Nat := [
  0x85, 0xa0, 0x1680, 0x2000, 0x2001, 0x2002, 0x2003, 0x2004, 0x2005, 0x2006, 0x2007, 0x2008, 0x2009, 0x200a, 0x2028, 0x2029, 0x202f, 0x205f, 0x3000]

/-- the zeros of the decimal digits beyond ASCII (Unicode 14, the data of Python 3.11); each is followed by the other nine digits -/
def unicodeZeros : List Nat := [
  0x660, 0x6f0, 0x7c0, 0x966, 0x9e6, 0xa66, 0xae6, 0xb66, 0xbe6, 0xc66, 0xce6, 0xd66, 0xde6, 0xe50, 0xed0, 0xf20, 0x1040, 0x1090, 0x17e0, 0x1810,
  0x1946, 0x19d0, 0x1a80, 0x1a90, 0x1b50, 0x1bb0, 0x1c40, 0x1c50, 0xa620, 0xa8d0, 0xa900, 0xa9d0, 0xa9f0, 0xaa50, 0xabf0, 0xff10, 0x104a0, 0x10d30,
  0x11066, 0x110f0, 0x11136, 0x111d0, 0x112f0, 0x11450, 0x114d0, 0x11650, 0x116c0, 0x11730, 0x118e0, 0x11950, 0x11c50, 0x11d50, 0x11da0, 0x16a60,
  0x16ac0, 0x16b50, 0x1d7ce, 0x1d7d8, 0x1d7e2, 0x1d7ec, 0x1d7f6, 0x1e140, 0x1e2f0, 0x1e950, 0x1fbf0]

/-- the character that `int` and `float` take a character for: blanks of all kinds are blanks, decimal digits of all scripts are digits, any other character beyond ASCII is not allowed -/
def asciiChar (c : Char) : Char :=
  if c.toNat < 128 then c
  else if c.toNat ∈ unicodeBlanks then ' '
  else match unicodeZeros.find? (fun z => z ≤ c.toNat && c.toNat < z + 10) with
    | some z => digitChar (c.toNat - z)
    | none => '?'

/-- what `int` and `float` do with a text before they read the literal: blanks and digits of all scripts are taken for those of ASCII, blanks at the ends and underscores between digits are
ignored. -/
def literal (s : Str) : Option Str := dropUnderscores false (stripBlank (s.map asciiChar))

/-- `int(text)`; `none` is `ValueError`. The limit on the number of digits (4300 by default) is in `Model/DigitLimit`. -/
def parseInt (s : Str) : Option Int := (literal s).bind readInt

end Verif
