import Verif.Model.ListMiner
import Verif.Spec.Nominal
import Verif.Spec.MDL
/-! What the subgroup-list algorithms are supposed to do, in terms of the candidates loaded (`cs`), the positives `P` and negatives `N`
of the data set and the lists returned. A list is described by the indices of its candidates. -/
namespace Verif.Spec

/-- `P` and `N` mark the rows with and without the target value -/
structure IsClasses (df : Frame) (target : Str × Str) (P N : Bits) : Prop where
  lenP : P.length = df.nrows
  lenN : N.length = df.nrows
  pos : ∀ (i : Nat), P.get i = true ↔ MatchesAt df (targetSel target) i
  neg : ∀ (i : Nat), N.get i = true ↔ i < df.nrows ∧ ¬ MatchesAt df (targetSel target) i

/-- a candidate that fits the data: one bit per row, its attributes are columns, and the number of attribute combinations of its size
is small enough for the logarithm of `numpy` -/
structure Fits (df : Frame) (c : Cand) : Prop where
  pos : c.pos.length = df.nrows
  neg : c.neg.length = df.nrows
  attrs : ∀ s ∈ c.sub.description.sels, s.attr ∈ df.cols.map (·.1)
  comb : (df.cols.length - 1).choose c.sub.description.sels.length < 2 ^ 64

/-- the subgroup `t` properly refines `s`: same target and the selectors of `s` are a proper part of those of `t` -/
def ProperRefinement (s t : Subgroup) : Prop :=
  {x | x ∈ s.description.sels} ⊂ {x | x ∈ t.description.sels} ∧ s.target.eq t.target = true

/-- the candidates at some indices -/
def entriesAt (cs : List Cand) (idx : List Nat) : List Cand := idx.filterMap (cs[·]?)

/-- the contents of a returned list: subgroups with their individual bitarrays -/
def entriesOf (l : SubgroupList) : List Cand :=
  List.zipWith (fun s (b : Bits × Bits) => ⟨s, b.1, b.2⟩) l.subs (List.zip l.origPos l.origNeg)

/-- candidate `x` may still be chosen when those at the indices `E` have been: it is none of them and not related to any -/
def Available (related : Subgroup → Subgroup → Prop) (cs : List Cand) (E : List Nat) (x : Nat) : Prop :=
  x ∉ E ∧ ∀ e ∈ E, ∀ ce cx, cs[e]? = some ce → cs[x]? = some cx → ¬ related ce.sub cx.sub

/-- a greedy rule: gains are compared by `gt`, gain and admissibility may depend on the entries of the list so far -/
structure Rule (G : Type) where
  zero : G
  gt : G → G → Prop
  gain : List Cand → Cand → G
  admissible : List Cand → Cand → Prop
  related : Subgroup → Subgroup → Prop
  maxSize : Option Nat

variable {G : Type}

/-- `i` is the right choice for a list that contains `es`, when the candidates `E` were chosen before: it is available and
admissible, has positive gain, none is better, and it is the first of the best -/
def Rule.IsPick (R : Rule G) (cs : List Cand) (E : List Nat) (es : List Cand) (i : Nat) : Prop :=
  ∃ c, cs[i]? = some c ∧ Available R.related cs E i ∧ R.admissible es c ∧ R.gt (R.gain es c) R.zero ∧
    ∀ (x : Nat) (cx : Cand), cs[x]? = some cx → Available R.related cs E x → R.admissible es cx →
      ¬ R.gt (R.gain es cx) (R.gain es c) ∧ (x < i → R.gain es cx ≠ R.gain es c)

/-- `idx` is the list built when the candidates `E` have been used by earlier lists: every element is the right choice at its
moment, the size limit is respected, and the list only ends at the limit or when no available candidate has positive gain -/
structure Rule.IsList (R : Rule G) (cs : List Cand) (E idx : List Nat) : Prop where
  pick : ∀ j i, idx[j]? = some i → R.IsPick cs (E ++ idx.take j) (entriesAt cs (idx.take j)) i
  size : ∀ m, R.maxSize = some m → idx.length ≤ m
  stop : R.maxSize = some idx.length ∨
    ∀ (x : Nat) (cx : Cand), cs[x]? = some cx → Available R.related cs (E ++ idx) x →
      R.admissible (entriesAt cs idx) cx → ¬ R.gt (R.gain (entriesAt cs idx) cx) R.zero

/-- a whole run: each list is built from what the earlier ones leave -/
def Rule.IsRun (R : Rule G) (cs : List Cand) (run : List (List Nat)) : Prop :=
  ∀ k idx, run[k]? = some idx → R.IsList cs (run.take k).flatten idx

/-- the lists returned, with their contents, are those of a run -/
def Rule.Produces (R : Rule G) (cs : List Cand) (res : List SubgroupList) : Prop :=
  ∃ run, R.IsRun cs run ∧ res.map entriesOf = run.map (entriesAt cs)

/-- number of rows of the class `D` that are in `b` and in none of the bitarrays `earlier` -/
def newRows (D b : Bits) (earlier : List Bits) : Nat :=
  ((List.range D.length).filter (fun i => D.get i && b.get i && earlier.all (fun e => !e.get i))).length

/-- positives and negatives that the candidate covers after the entries `es` -/
def newPos (P : Bits) (es : List Cand) (c : Cand) : Nat := newRows P c.pos (es.map (·.pos))
def newNeg (N : Bits) (es : List Cand) (c : Cand) : Nat := newRows N c.neg (es.map (·.neg))

/-- `a` is a larger number than `b`, on floats: not-a-number is neither larger nor smaller than anything -/
def Greater : RVal → RVal → Prop
  | .fin a, .fin b => b < a
  | .inf, .fin _ => True
  | .inf, .ninf => True
  | .fin _, .ninf => True
  | _, _ => False

/-- the code length of `p` positives and `n` negatives under their own distribution (with `0 log 0 = 0`) plus the complexity of that
distribution -/
noncomputable def ownCode (p n : Nat) : ℝ :=
  -(p : ℝ) * Real.logb 2 ((p : ℝ) / (p + n : Nat)) - (n : ℝ) * Real.logb 2 ((n : ℝ) / (p + n : Nat)) + Real.logb 2 (complexityTwo (p + n))

/-- the code length of the description of a subgroup: its size, its attributes and its values -/
noncomputable def descriptionCode (df : Frame) (s : Subgroup) : ℝ :=
  universalCode s.description.sels.length + Real.logb 2 ((df.cols.length - 1).choose s.description.sels.length : ℝ) +
    (s.description.sels.map (fun x => Real.logb 2 (((df.cols.lookup x.attr).getD []).dedup.length : ℝ))).sum

/-- the normalised compression gain of a candidate after the entries `es`: what the default rule saves on the rows newly covered, minus
their own code, minus the growth of the description of the list; divided by the number of the rows to the power `beta`.
Nothing new covered: 0. A data set with one class only: not a number. More selectors than attributes: infinite. -/
noncomputable def gainSpec (df : Frame) (beta : ℝ) (P N : Bits) (es : List Cand) (c : Cand) : RVal :=
  let p := newPos P es c
  let n := newNeg N es c
  if p + n = 0 then .fin 0
  else if P.ones = 0 ∨ N.ones = 0 then .nan
  else if df.cols.length - 1 < c.sub.description.sels.length then .inf
  else .fin ((-(p : ℝ) * Real.logb 2 ((P.ones : ℝ) / P.length) - (n : ℝ) * Real.logb 2 ((N.ones : ℝ) / P.length)
      - ownCode p n - (universalCode (es.length + 1) - universalCode es.length) - descriptionCode df c.sub) /
      ((p + n : Nat) : ℝ) ^ beta)

/-- how much of the coverage of the earlier entries a bitarray repeats: ∑ |e ∩ b| / ∑ |e| (0 when they cover nothing) -/
def overlap (earlier : List Bits) (b : Bits) : Rat :=
  (((earlier.map (fun e => (e.and b).ones)).sum : Nat) : Rat) / (((earlier.map Bits.ones).sum : Nat) : Rat)

/-- the factors of DSLM: by convention 1 for a candidate without positives, 0 for one without negatives -/
def posOverlap (es : List Cand) (c : Cand) : Rat := if c.pos.ones = 0 then 1 else overlap (es.map (·.pos)) c.pos
def negOverlap (es : List Cand) (c : Cand) : Rat := if c.neg.ones = 0 then 0 else overlap (es.map (·.neg)) c.neg

open Classical in
/-- a gain reduced by the overlaps `po` and `no` with the positives and negatives covered before: multiplied by `1 - po` and by
`1 - no`. An infinite gain stays infinite, but is not a number if one of the overlaps is total. -/
noncomputable def reduced (po no : Rat) : RVal → RVal
  | .fin g => .fin (g * (1 - (po : ℝ)) * (1 - (no : ℝ)))
  | .inf => if po = 1 ∨ no = 1 then .nan else .inf
  | .ninf => if po = 1 ∨ no = 1 then .nan else .ninf
  | .nan => .nan

/-- GMSL -/
noncomputable def gmslRule (df : Frame) (beta : ℝ) (P N : Bits) : Rule RVal where
  zero := .fin 0
  gt := Greater
  gain := gainSpec df beta P N
  admissible _ _ := True
  related := ProperRefinement
  maxSize := none

/-- PSLD: the candidate covers new positives; both refinements and generalisations of a chosen subgroup are out -/
noncomputable def psldRule (df : Frame) (beta : ℝ) (size : Nat) (P N : Bits) : Rule RVal where
  zero := .fin 0
  gt := Greater
  gain := gainSpec df beta P N
  admissible es c := 0 < newPos P es c
  related s t := ProperRefinement s t ∨ ProperRefinement t s
  maxSize := some size

/-- DSLM: the gain is reduced by the overlap with the entries of the list, and the overlap is limited -/
noncomputable def dslmRule (df : Frame) (beta : ℝ) (size : Nat) (maxPos maxNeg : ℝ) (P N : Bits) : Rule RVal where
  zero := .fin 0
  gt := Greater
  gain es c := if newPos P es c + newNeg N es c = 0 then .fin 0
    else reduced (posOverlap es c) (negOverlap es c) (gainSpec df beta P N es c)
  admissible es c := 0 < newPos P es c ∧ (posOverlap es c : ℝ) ≤ maxPos ∧ (negOverlap es c : ℝ) ≤ maxNeg
  related s t := ProperRefinement s t ∨ ProperRefinement t s
  maxSize := some size

end Verif.Spec
