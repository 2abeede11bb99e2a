import Verif.Model.Selector
import Mathlib.Data.Rat.Cast.Order
/-! What a text means to Python's `int` and `float` and to `Selector.generate_from_str`: a grammar of number literals with their values. Written
without the parser of the model. -/
namespace Verif

/-- `Digits t n k`: `t` is `k ≥ 1` decimal digits, where one underscore may stand between two digits; `n` is the number they denote. -/
inductive Digits : Str → Nat → Nat → Prop
  | one {d : Nat} : d < 10 → Digits [digitChar d] d 1
  | more {t : Str} {n k d : Nat} : Digits t n k → d < 10 → Digits (t ++ [digitChar d]) (10 * n + d) (k + 1)
  | underscore {t : Str} {n k d : Nat} : Digits t n k → d < 10 → Digits (t ++ ['_', digitChar d]) (10 * n + d) (k + 1)

/-- the character `c` counts as the ASCII character `d`: an ASCII character as itself, a blank of Unicode as a blank, a decimal digit of another script as the digit of the same value -/
inductive CountsAs : Char → Char → Prop
  | ascii {c : Char} : c.toNat < 128 → CountsAs c c
  | blank {c : Char} : c.toNat ∈ unicodeBlanks → CountsAs c ' '
  | digit {c : Char} {zero d : Nat} : zero ∈ unicodeZeros → d < 10 → c.toNat = zero + d → CountsAs c (digitChar d)

/-- only blanks (of ASCII) -/
def Blanks (t : Str) : Prop := ∀ c ∈ t, c = ' ' ∨ c = '\t' ∨ c = '\n' ∨ c = '\x0b' ∨ c = '\x0c' ∨ c = '\r'

/-- an optional sign and the factor it stands for -/
def Sign (t : Str) (σ : Int) : Prop := (t = [] ∧ σ = 1) ∨ (t = ['+'] ∧ σ = 1) ∨ (t = ['-'] ∧ σ = -1)

/-- `t` is a text of ASCII characters that `int` reads as `z` -/
def AsciiInt (t : Str) (z : Int) : Prop :=
  ∃ (before sign digits after : Str) (σ : Int) (n k : Nat), Blanks before ∧ Blanks after ∧ Sign sign σ ∧ Digits digits n k ∧
    t = before ++ sign ++ digits ++ after ∧ z = σ * n

/-- `t` is a text that `int` reads as `z` -/
def IntText (t : Str) (z : Int) : Prop := ∃ u, List.Forall₂ CountsAs t u ∧ AsciiInt u z

/-- digits with an optional decimal point, and the number they denote -/
inductive Mantissa : Str → Rat → Prop
  | whole {i : Str} {n k : Nat} : Digits i n k → Mantissa i n
  | point {i : Str} {n k : Nat} : Digits i n k → Mantissa (i ++ ['.']) n
  | both {i f : Str} {n k m j : Nat} : Digits i n k → Digits f m j → Mantissa (i ++ '.' :: f) (n + m / 10 ^ j)
  | frac {f : Str} {m j : Nat} : Digits f m j → Mantissa ('.' :: f) (m / 10 ^ j)

/-- optional exponent -/
inductive Exponent : Str → Int → Prop
  | none : Exponent [] 0
  | some {c : Char} {s d : Str} {σ : Int} {n k : Nat} : (c = 'e' ∨ c = 'E') → Sign s σ → Digits d n k → Exponent (c :: s ++ d) (σ * n)

/-- `t` is a decimal literal of ASCII characters that `float` reads as the number `q` -/
def AsciiFloat (t : Str) (q : Rat) : Prop :=
  ∃ (before sign mant ex after : Str) (σ : Int) (v : Rat) (e : Int), Blanks before ∧ Blanks after ∧ Sign sign σ ∧ Mantissa mant v ∧ Exponent ex e ∧
    t = before ++ sign ++ mant ++ ex ++ after ∧ q = σ * v * (10 : Rat) ^ e

/-- `t` is a decimal literal that `float` reads as the number `q` -/
def FloatText (t : Str) (q : Rat) : Prop := ∃ u, List.Forall₂ CountsAs t u ∧ AsciiFloat u q

/-- the first and the last character of `t` are one and the same quote mark -/
def Quoted (t : Str) : Prop := ∃ q, (q = '\'' ∨ q = '"') ∧ t.head? = some q ∧ t.getLast? = some q

/-- the value that the text `t` stands for in a selector -/
inductive Reads : Str → Val → Prop
  /-- in quotes: what is between them -/
  | quoted {t : Str} : Quoted t → Reads t (.str t.tail.dropLast)
  /-- a decimal literal with a point -/
  | float {t : Str} {f : Flt} : ¬ Quoted t → '.' ∈ t → FloatText t f.toRat → Reads t (.flt f)
  /-- an integer literal -/
  | int {t : Str} {z : Int} : ¬ Quoted t → IntText t z → Reads t (.int z)
  /-- anything else is the text itself -/
  | text {t : Str} : ¬ Quoted t → (∀ z, ¬ IntText t z) → ('.' ∈ t → ∀ q, ¬ FloatText t q) → Reads t (.str t)

end Verif
