import Verif.Model.Bits
import Verif.Model.Pattern
import Verif.Model.Quality
/-! Model of `src/subgroups/credibility_measures/odds_ratio_stat.py`, `p_value_independence.py` and `selector_contribution.py`. -/
namespace Verif

/-- A Python number as the credibility measures use it: an exact rational (rounding is not modelled), an infinity or `nan`. -/
inductive XF
  | fin (q : Rat)
  | inf
  | ninf
  | nan
  deriving DecidableEq, Repr

namespace XF

/-- `a < b` (false as soon as one is `nan`) -/
def lt : XF → XF → Bool
  | fin a, fin b => decide (a < b)
  | fin _, inf => true
  | ninf, fin _ => true
  | ninf, inf => true
  | _, _ => false

/-- `a <= b` -/
def le : XF → XF → Bool
  | fin a, fin b => decide (a ≤ b)
  | nan, _ => false
  | _, nan => false
  | ninf, _ => true
  | _, inf => true
  | _, _ => false

/-- `a >= b` -/
def ge (a b : XF) : Bool := le b a

/-- `a == b` -/
def eqv : XF → XF → Bool
  | fin a, fin b => decide (a = b)
  | inf, inf => true
  | ninf, ninf => true
  | _, _ => false

/-- `a - b` -/
def sub : XF → XF → XF
  | fin a, fin b => fin (a - b)
  | nan, _ => nan
  | _, nan => nan
  | inf, inf => nan
  | ninf, ninf => nan
  | inf, _ => inf
  | ninf, _ => ninf
  | fin _, inf => ninf
  | fin _, ninf => inf

/-- `a + d` with a finite number -/
def addFin : XF → Rat → XF
  | fin a, d => fin (a + d)
  | x, _ => x

/-- `a * n` with a positive integer -/
def mulPos : XF → Nat → XF
  | fin a, n => fin (a * n)
  | x, _ => x

/-- `a / b`; the only use in the library has `b != 0` -/
def div : XF → XF → Except PyErr XF
  | fin a, fin b => if b = 0 then .error .zeroDivisionError else .ok (fin (a / b))
  | inf, fin b => if b = 0 then .error .zeroDivisionError else .ok (if 0 < b then inf else ninf)
  | ninf, fin b => if b = 0 then .error .zeroDivisionError else .ok (if 0 < b then ninf else inf)
  | fin _, inf => .ok (fin 0)
  | fin _, ninf => .ok (fin 0)
  | _, _ => .ok nan

/-- `min(a, b)`: the second one only if it is smaller -/
def pyMin (a b : XF) : XF := if lt b a then b else a

/-- `max(a, b)`: the second one only if it is greater -/
def pyMax (a b : XF) : XF := if lt a b then b else a

end XF

/-- a parameter of a credibility measure: a number or a boolean `Series` -/
inductive CredArg
  | num (q : Rat)
  | bits (b : Bits)
  deriving DecidableEq

/-- the keys of the parameter dictionaries of the credibility measures -/
def kAppearance : Str := c!"appearance"
def kTarget : Str := c!"target_appearance"

/-- `key in d` -/
def Dict.has {α : Type} (d : Dict α) (k : Str) : Bool := (d.lookup k).isSome

/-- `d[key]` where a number is needed: `KeyError` when absent. Simplification: the other kinds of value are a `TypeError` -/
def Dict.numAt (d : Dict CredArg) (k : Str) : Except PyErr Rat :=
  match d.lookup k with
  | some (.num q) => .ok q
  | some (.bits _) => .error .typeError
  | none => .error .keyError

/-- `d[key]` where a boolean series is needed -/
def Dict.bitsAt (d : Dict CredArg) (k : Str) : Except PyErr Bits :=
  match d.lookup k with
  | some (.bits b) => .ok b
  | some (.num _) => .error .typeError
  | none => .error .keyError

namespace Bits
/-- `a & b` of two pandas `Series` with default indexes: aligned on the union of the indexes; a row that one of them lacks is false. -/
def alignAnd (a b : Bits) : Bits :=
  (List.range (max a.length b.length)).map (fun i => a.getD i false && b.getD i false)
end Bits

namespace OddsRatioStatistic

/-- the odds ratio of the four counts, `odds_ratio_stat.py:61-76` -/
def ofCounts (tp fp TP FP : Rat) : XF :=
  if tp = TP ∧ fp = FP then .fin 0
  else if tp = TP then .inf
  else if fp = FP then .fin 0
  else if tp = 0 ∧ fp = 0 then .fin 0
  else if fp = 0 then .inf
  else .fin ((tp / fp) / ((TP - tp) / (FP - fp)))

/-- the odds ratio of two boolean series, `odds_ratio_stat.py:53-76` -/
def ofBits (app target : Bits) : XF :=
  ofCounts (app.alignAnd target).ones (app.alignAnd target.not).ones target.ones target.not.ones

/-- `OddsRatioStatistic.compute`, `odds_ratio_stat.py:31-76` -/
def compute (d : Dict CredArg) : Except PyErr XF :=
  if (!d.has kTp || !d.has kFp || !d.has kTP || !d.has kFP) && (!d.has kAppearance || !d.has kTarget) then
    .error .parameterNotFound
  else if d.has kTp then do
    let tp ← d.numAt kTp
    let fp ← d.numAt kFp
    let TP ← d.numAt kTP
    let FP ← d.numAt kFP
    return ofCounts tp fp TP FP
  else do
    let a ← d.bitsAt kAppearance
    let t ← d.bitsAt kTarget
    return ofBits a t

end OddsRatioStatistic

namespace SelectorContribution

/-- the loop over the selectors, `selector_contribution.py:91-115`. `orOf` is the odds ratio of a pattern; `mn`, `mx` are the least and
greatest contributions so far; the result is `inl` on the early return -/
def loop (orOf : Pattern → Except PyErr XF) (thld : Option XF) (p : Pattern) (o : XF) :
    List Selector → XF → XF → Except PyErr ((XF × XF) ⊕ (XF × XF))
  | [], mn, mx => .ok (.inr (mn, mx))
  | s :: rest, mn, mx =>
    match orOf (p.copy.remove s) with
    | .error e => .error e
    | .ok o' =>
      let c := o.sub o'
      if (match thld with | some t => c.lt t | none => false) then .ok (.inl (c, .inf))
      else loop orOf thld p o rest (mn.pyMin c) (mx.pyMax c)

/-- the contribution ratio, `selector_contribution.py:119-124` -/
def ratio (mn mx : XF) : Except PyErr XF :=
  if mn.eqv (.fin 0) then .ok .inf
  else if mn.eqv .inf && mx.eqv .inf then .ok (.fin 1)
  else mx.div mn

/-- `SelectorContribution.compute` once the parameters are read, `selector_contribution.py:54-125`: the absolute contribution and
the contribution ratio -/
def compute (orOf : Pattern → Except PyErr XF) (thld : Option XF) (p : Pattern) : Except PyErr (XF × XF) :=
  if p.len = 0 then .ok (.fin 0, .fin 0)
  else if p.len = 1 then .ok (.fin 1, .fin 1)
  else match orOf p with
    | .error e => .error e
    | .ok o => match loop orOf thld p o p.sels .inf .ninf with
      | .error e => .error e
      | .ok (.inl r) => .ok r
      | .ok (.inr (mn, mx)) => match ratio mn mx with
        | .error e => .error e
        | .ok r => .ok (mn, r)

/-- the odds ratios read from a table of the texts of the patterns, `selector_contribution.py:69-72`, `:97-98` -/
def tableOr (table : Dict XF) (p : Pattern) : Except PyErr XF :=
  match table.lookup p.str with
  | some v => .ok v
  | none => .error .keyError

/-- `pattern_appearance &= selector_appearances[selector]` over the selectors, `selector_contribution.py:85-87`, `:101-103` -/
def appearance (apps : List (Selector × Bits)) : List Selector → Bits → Except PyErr Bits
  | [], acc => .ok acc
  | s :: rest, acc => match apps.lookup s with
    | some b => appearance apps rest (acc.alignAnd b)
    | none => .error .keyError

/-- the odds ratios computed from the appearances of the selectors (`odds_ratio_definition = "statistic"`). All the patterns are
taken over the index of the first appearance of the dictionary, `selector_contribution.py:78`, `:84-89`, `:100-104` -/
def appearanceOr (apps : List (Selector × Bits)) (target : Bits) (p : Pattern) : Except PyErr XF :=
  match apps with
  | [] => .error .indexError
  | a :: _ => match appearance apps p.sels (List.replicate a.2.length true) with
    | .error e => .error e
    | .ok b => .ok (OddsRatioStatistic.ofBits b target)

/-- the dictionary of parameters of `SelectorContribution.compute`, `selector_contribution.py:40-60`; `none` stands for a missing key. Simplification: the values have the
types the library uses (odds ratios by text, Boolean series by selector). -/
structure Args where
  oddsRatios : Option (Dict XF)
  appearances : Option (List (Selector × Bits))
  target : Option Bits
  definition : Option Str
  threshold : Option XF
  pattern : Option Pattern

/-- the odds ratio of the conjunction of the appearances, by `OddsRatioGLM` (`glm`, see `Model/GLM`) or `OddsRatioStatistic`, `selector_contribution.py:78-89`, `:100-104` -/
def appearanceBy (measure : Bits → Bits → XF) (apps : List (Selector × Bits)) (target : Bits) (p : Pattern) : Except PyErr XF :=
  match apps with
  | [] => .error .indexError
  | a :: _ => match appearance apps p.sels (List.replicate a.2.length true) with
    | .error e => .error e
    | .ok b => .ok (measure b target)

/-- `SelectorContribution.compute`, `selector_contribution.py:33-125` -/
def run (glm : Bits → Bits → XF) (d : Args) : Except PyErr (XF × XF) :=
  if d.oddsRatios.isNone && d.appearances.isNone then .error .parameterNotFound
  else if d.appearances.isSome && d.target.isNone then .error .parameterNotFound
  else match d.definition with
    | none => .error .parameterNotFound
    | some df => match d.pattern with
      | none => .error .parameterNotFound
      | some p =>
        if df ≠ c!"glm" ∧ df ≠ c!"statistic" then .error .valueError
        else match d.oddsRatios with
          | some t => compute (tableOr t) d.threshold p
          | none => compute (appearanceBy (if df = c!"glm" then glm else OddsRatioStatistic.ofBits) (d.appearances.getD []) (d.target.getD [])) d.threshold p

end SelectorContribution

end Verif
