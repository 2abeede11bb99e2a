import Verif.Model.FloatLists
import Verif.Spec.ListMiner
/-! What GMSL, PSLD and DSLM are supposed to do on a machine with the arithmetic `A`: the greedy rules of `Spec/ListMiner.lean`
with the gain that the machine computes, and what it means that this gain is near the exact one. -/
namespace Verif.Spec
variable {F : Type}

/-- comparison of floats: `>` is a strict order (not-a-number may be unordered) -/
structure Arith.Ordered (A : Arith F) : Prop where
  irrefl : ∀ a, A.gt a a = false
  trans : ∀ a b c, A.gt a b = true → A.gt b c = true → A.gt a c = true

/-- number of rows of the class `D` in none of the bitarrays -/
def leftRows (D : Bits) (earlier : List Bits) : Nat :=
  ((List.range D.length).filter (fun i => D.get i && earlier.all (fun e => !e.get i))).length

/-- the cost of `pos` positives and `neg` negatives under the default rule, as the machine computes it -/
def computedDefault (A : Arith F) (P N : Bits) (pos neg : Nat) : F :=
  A.sub (A.scaleNeg pos (A.logF (A.quot P.ones (P.ones + N.ones)))) (A.scale neg (A.logF (A.quot N.ones (P.ones + N.ones))))

/-- the cost of `p` positives and `n` negatives under their own distribution, as the machine computes it (without the term of an
empty class) -/
def computedOwn (A : Arith F) (p n : Nat) : F :=
  let term := fun k => A.logF (A.quot k (p + n))
  A.add (if p = 0 then A.scaleNeg n (term n) else if n = 0 then A.scaleNeg p (term p)
    else A.sub (A.scaleNeg p (term p)) (A.scale n (term n))) (A.complexity (p + n))

/-- the change of the description of the list that contains `es` when `s` is added, as the machine computes it -/
def computedModel (A : Arith F) (df : Frame) (es : List Cand) (s : Subgroup) : F :=
  (s.description.sels.map (fun x => ((df.cols.lookup x.attr).getD []).dedup.length)).foldl (fun r k => A.sub r (A.logN k))
    (A.sub (A.sub (A.sub (A.code es.length) (A.code (es.length + 1))) (A.code s.description.sels.length))
      (A.logN ((df.cols.length - 1).choose s.description.sels.length)))

/-- the gain that the machine computes for a candidate after the entries `es` -/
def computedGain (A : Arith F) (df : Frame) (P N : Bits) (es : List Cand) (c : Cand) : F :=
  let p := newPos P es c
  let n := newNeg N es c
  let pos := leftRows P (es.map (·.pos))
  let neg := leftRows N (es.map (·.neg))
  if p + n = 0 then A.zero
  else A.divPow (A.add (computedModel A df es c.sub)
    (A.sub (A.sub (computedDefault A P N pos neg) (computedDefault A P N (pos - p) (neg - n))) (computedOwn A p n))) (p + n)

/-- the overlap of a bitarray with earlier ones, as the machine computes it -/
def computedOverlap (A : Arith F) (dflt : F) (earlier : List Bits) (b : Bits) : F :=
  if b.ones = 0 then dflt
  else if (earlier.map Bits.ones).sum = 0 then A.zero
  else A.quot (earlier.map (fun e => (e.and b).ones)).sum (earlier.map Bits.ones).sum

/-- GMSL on the machine -/
def gmslRuleF (A : Arith F) (df : Frame) (P N : Bits) : Rule F where
  zero := A.zero
  gt a b := A.gt a b = true
  gain := computedGain A df P N
  admissible _ _ := True
  related := ProperRefinement
  maxSize := none

/-- PSLD on the machine -/
def psldRuleF (A : Arith F) (df : Frame) (size : Nat) (P N : Bits) : Rule F where
  zero := A.zero
  gt a b := A.gt a b = true
  gain := computedGain A df P N
  admissible es c := 0 < newPos P es c
  related s t := ProperRefinement s t ∨ ProperRefinement t s
  maxSize := some size

/-- DSLM on the machine -/
def dslmRuleF (A : Arith F) (df : Frame) (size : Nat) (maxPos maxNeg : F) (P N : Bits) : Rule F where
  zero := A.zero
  gt a b := A.gt a b = true
  gain es c := if newPos P es c + newNeg N es c = 0 then A.zero
    else A.mul (A.mul (computedGain A df P N es c) (A.sub A.one (computedOverlap A A.one (es.map (·.pos)) c.pos)))
      (A.sub A.one (computedOverlap A A.zero (es.map (·.neg)) c.neg))
  admissible es c := 0 < newPos P es c ∧ A.le (computedOverlap A A.one (es.map (·.pos)) c.pos) maxPos = true ∧
    A.le (computedOverlap A A.zero (es.map (·.neg)) c.neg) maxNeg = true
  related s t := ProperRefinement s t ∨ ProperRefinement t s
  maxSize := some size

/-- two floats differ by at most `ε`: both are numbers at distance at most `ε`, or both are the same special value -/
def Near (ε : ℝ) : RVal → RVal → Prop
  | .fin a, .fin b => |a - b| ≤ ε
  | .nan, .nan => True
  | .inf, .inf => True
  | .ninf, .ninf => True
  | _, _ => False

/-- `a` is a number larger than `b + ε` (a shifted comparison of floats) -/
def GreaterBy (ε : ℝ) : RVal → RVal → Prop
  | .fin a, .fin b => b + ε < a
  | .inf, .fin _ => True
  | .inf, .ninf => True
  | .fin _, .ninf => True
  | _, _ => False

/-- `idx` is a list as the rule `R` wants it up to `ε`: every element was available and admissible, its exact gain is more than `-ε`,
no available admissible candidate had a gain larger by more than `2ε`; the list ends only at the limit or when no available
admissible candidate has a gain larger than `ε` -/
structure Rule.IsListUpTo (R : Rule RVal) (ε : ℝ) (cs : List Cand) (E idx : List Nat) : Prop where
  pick : ∀ j i, idx[j]? = some i → ∃ c, cs[i]? = some c ∧ Available R.related cs (E ++ idx.take j) i ∧
    R.admissible (entriesAt cs (idx.take j)) c ∧ GreaterBy (-ε) (R.gain (entriesAt cs (idx.take j)) c) (.fin 0) ∧
    ∀ (x : Nat) (cx : Cand), cs[x]? = some cx → Available R.related cs (E ++ idx.take j) x →
      R.admissible (entriesAt cs (idx.take j)) cx →
      ¬ GreaterBy (2 * ε) (R.gain (entriesAt cs (idx.take j)) cx) (R.gain (entriesAt cs (idx.take j)) c)
  size : ∀ m, R.maxSize = some m → idx.length ≤ m
  stop : R.maxSize = some idx.length ∨
    ∀ (x : Nat) (cx : Cand), cs[x]? = some cx → Available R.related cs (E ++ idx) x →
      R.admissible (entriesAt cs idx) cx → ¬ GreaterBy ε (R.gain (entriesAt cs idx) cx) (.fin 0)

/-- the lists returned are those of a run that obeys the rule up to `ε` -/
def Rule.ProducesUpTo (R : Rule RVal) (ε : ℝ) (cs : List Cand) (res : List SubgroupList) : Prop :=
  ∃ run : List (List Nat), (∀ k idx, run[k]? = some idx → R.IsListUpTo ε cs (run.take k).flatten idx) ∧
    res.map entriesOf = run.map (entriesAt cs)

/-- the exact arithmetic: real numbers with the infinities and not-a-number of the standard; `beta` is the parameter -/
noncomputable def exactArith (beta : ℝ) : Arith RVal where
  zero := .fin 0
  one := .fin 1
  gt := RVal.gt
  le a b := RVal.gt b a || (match a, b with
    | .fin x, .fin y => @decide (x = y) (Classical.propDecidable _)
    | .inf, .inf => true
    | .ninf, .ninf => true
    | _, _ => false)
  add := RVal.add
  sub := RVal.sub
  mul a b := match b with
    | .fin x => a.mulFin x
    | .nan => .nan
    | .inf => (match a with | .fin x => RVal.mulFin .inf x | .inf => .inf | .ninf => .ninf | .nan => .nan)
    | .ninf => (match a with | .fin x => RVal.mulFin .ninf x | .inf => .ninf | .ninf => .inf | .nan => .nan)
  quot m n := .fin ((m : ℝ) / n)
  scale n x := x.mulFin n
  scaleNeg n x := x.mulFin (-(n : ℝ))
  logF x := match x with
    | .fin r => if r = 0 then .ninf else if r < 0 then .nan else .fin (Real.logb 2 r)
    | .inf => .inf
    | _ => .nan
  logN n := if n = 0 then .ninf else .fin (Real.logb 2 n)
  divPow x n := x.divPos ((n : ℝ) ^ beta)
  code n := .fin (universalCode n)
  complexity n := .fin (Real.logb 2 (complexityTwo n))

/-- the float `x` is a number that differs from `r` by a relative error of at most `u` -/
def Rel (u : ℝ) (x : RVal) (r : ℝ) : Prop := ∃ s, x = .fin s ∧ |s - r| ≤ u * |r|

/-- an arithmetic in which every operation on numbers has a relative error of at most `u` (no overflow and no underflow), and in which
infinities and not-a-number behave as in the standard -/
structure Arith.Standard (A : Arith RVal) (beta u : ℝ) : Prop where
  zero : A.zero = .fin 0
  one : A.one = .fin 1
  gt : A.gt = RVal.gt
  add : ∀ a b, Rel u (A.add (.fin a) (.fin b)) (a + b)
  sub : ∀ a b, Rel u (A.sub (.fin a) (.fin b)) (a - b)
  mul : ∀ a b, Rel u (A.mul (.fin a) (.fin b)) (a * b)
  quot : ∀ m n : Nat, n ≠ 0 → Rel u (A.quot m n) ((m : ℝ) / n)
  scale : ∀ (n : Nat) a, Rel u (A.scale n (.fin a)) (n * a)
  scaleNeg : ∀ (n : Nat) a, Rel u (A.scaleNeg n (.fin a)) (-(n : ℝ) * a)
  logF : ∀ r, 0 < r → Rel u (A.logF (.fin r)) (Real.logb 2 r)
  logF_zero : A.logF (.fin 0) = .ninf
  logN : ∀ n : Nat, n ≠ 0 → Rel u (A.logN n) (Real.logb 2 n)
  logN_zero : A.logN 0 = .ninf
  divPow : ∀ a (n : Nat), Rel u (A.divPow (.fin a) n) (a / (n : ℝ) ^ beta)
  code : ∀ n, Rel u (A.code n) (universalCode n)
  complexity : ∀ n, Rel u (A.complexity n) (Real.logb 2 (complexityTwo n))
  special_add : ∀ a b, (∀ r, a ≠ .fin r) ∨ (∀ r, b ≠ .fin r) → A.add a b = a.add b
  special_sub : ∀ a b, (∀ r, a ≠ .fin r) ∨ (∀ r, b ≠ .fin r) → A.sub a b = a.sub b
  special_scale : ∀ (n : Nat) a, (∀ r, a ≠ .fin r) → A.scale n a = a.mulFin n
  special_scaleNeg : ∀ (n : Nat) a, (∀ r, a ≠ .fin r) → A.scaleNeg n a = a.mulFin (-(n : ℝ))
  special_divPow : ∀ a (n : Nat), (∀ r, a ≠ .fin r) → A.divPow a n = a.divPos ((n : ℝ) ^ beta)

/-- the weight of `pos` positives and `neg` negatives under probabilities `x` and `y`: their code lengths with 3 bits added to the code of
each row -/
noncomputable def rowsWeight (pos neg : Nat) (x y : ℝ) : ℝ := pos * (|Real.logb 2 x| + 3) + neg * (|Real.logb 2 y| + 3)

/-- the sum of the sizes of the terms of the gain of a candidate, before the division -/
noncomputable def gainWeight (df : Frame) (P N : Bits) (es : List Cand) (c : Cand) : ℝ :=
  let p := newPos P es c
  let n := newNeg N es c
  let pos := leftRows P (es.map (·.pos))
  let neg := leftRows N (es.map (·.neg))
  let x := (P.ones : ℝ) / P.length
  let y := (N.ones : ℝ) / P.length
  let len := c.sub.description.sels.length
  (|universalCode es.length| + |universalCode (es.length + 1)| + |universalCode len| +
    |Real.logb 2 ((df.cols.length - 1).choose len : ℝ)| +
    (c.sub.description.sels.map (fun s => |Real.logb 2 (((df.cols.lookup s.attr).getD []).dedup.length : ℝ)|)).sum) +
  (rowsWeight pos neg x y + rowsWeight (pos - p) (neg - n) x y +
    (rowsWeight p n ((p : ℝ) / (p + n : Nat)) ((n : ℝ) / (p + n : Nat)) + |Real.logb 2 (complexityTwo (p + n))|))

/-- the bound on the error of the gain of a candidate with `m` selectors: `m + 7` roundings -/
noncomputable def gainError (u beta : ℝ) (df : Frame) (P N : Bits) (es : List Cand) (c : Cand) : ℝ :=
  ((1 + u) ^ (c.sub.description.sels.length + 7) - 1) *
    (gainWeight df P N es c / ((newPos P es c + newNeg N es c : Nat) : ℝ) ^ beta)

end Verif.Spec
