import Verif.Spec.ListMiner
import Verif.Model.Py
/-! What the printed form of a subgroup list is supposed to say. -/
namespace Verif.Spec

/-- what is said about a subgroup: its text, the positives and negatives it covers at its position in the list (and no earlier subgroup does), and those it covers on
its own -/
structure ListEntry where
  text : Str
  pos : Nat
  neg : Nat
  ownPos : Nat
  ownNeg : Nat
  deriving DecidableEq

/-- the nine lines about the subgroup number `k` -/
def entryLines (k : Nat) (e : ListEntry) : List Str :=
  [c!"s" ++ natStr k ++ c!": " ++ e.text,
   c!"\tConsidering its position in the list:",
   c!"\t- positive instances covered: " ++ natStr e.pos,
   c!"\t- negative instances covered: " ++ natStr e.neg,
   c!"\t- total instances covered: " ++ natStr (e.pos + e.neg),
   c!"\tConsidering it individually:",
   c!"\t- positive instances covered: " ++ natStr e.ownPos,
   c!"\t- negative instances covered: " ++ natStr e.ownNeg,
   c!"\t- total instances covered: " ++ natStr (e.ownPos + e.ownNeg)]

/-- the lines about the subgroups, numbered from `k` -/
def entriesLines : Nat → List ListEntry → List Str
  | _, [] => []
  | k, e :: es => entryLines k e ++ entriesLines (k + 1) es

/-- the lines of a list with these subgroups, whose default rule has `dp` positives and `dn` negatives -/
def listLines (es : List ListEntry) (dp dn : Nat) : List Str :=
  [c!"## Subgroup list (" ++ natStr es.length ++ (if es.length = 1 then c!" subgroup) ##" else c!" subgroups) ##")] ++ entriesLines 1 es ++
  [c!"default rule:", c!"\tpositive instances covered: " ++ natStr dp, c!"\tnegative instances covered: " ++ natStr dn,
   c!"\ttotal instances covered: " ++ natStr (dp + dn)]

/-- what is said about a list with these contents: entry by entry, what is new in it, and what it covers -/
def entryOfCand (P N : Bits) (earlier : List Cand) (c : Cand) : ListEntry :=
  ⟨c.sub.str, newPos P earlier c, newNeg N earlier c, c.pos.ones, c.neg.ones⟩
def entriesOfCands (P N : Bits) : List Cand → List Cand → List ListEntry
  | _, [] => []
  | earlier, c :: cs => entryOfCand P N earlier c :: entriesOfCands P N (earlier ++ [c]) cs

/-- the rows of the class `D` that are in none of the bitarrays -/
def restRows (D : Bits) (earlier : List Bits) : Nat := ((List.range D.length).filter (fun i => D.get i && earlier.all (fun e => !e.get i))).length

/-- the lines of a list with the contents `cs` -/
def candLines (P N : Bits) (cs : List Cand) : List Str :=
  listLines (entriesOfCands P N [] cs) (restRows P (cs.map (·.pos))) (restRows N (cs.map (·.neg)))

/-- the lines about the data -/
def infoLines (rows pos neg cols : Nat) : List Str :=
  [c!"Dataset information:", c!"\t- Number of instances: " ++ natStr rows ++ c!".", c!"\t- Number of positive instances: " ++ natStr pos ++ c!".",
   c!"\t- Number of negative instances: " ++ natStr neg ++ c!".", c!"\t- Total number of attributes (including the target): " ++ natStr cols ++ c!".", [], []]

end Verif.Spec

namespace Verif.Spec
section
open Classical

/-- what is said about the description `X` after the descriptions `earlier`, in terms of the rows of the data -/
noncomputable def coverEntry (df : Frame) (target : Str × Str) (earlier : List (List Selector)) (X : List Selector) : ListEntry :=
  ⟨(⟨⟨X⟩, targetSel target⟩ : Subgroup).str,
   ((List.range df.nrows).filter (fun i => decide (MatchesAt df (targetSel target) i ∧ Covers df X i ∧ ∀ Y ∈ earlier, ¬ Covers df Y i))).length,
   ((List.range df.nrows).filter (fun i => decide (¬ MatchesAt df (targetSel target) i ∧ Covers df X i ∧ ∀ Y ∈ earlier, ¬ Covers df Y i))).length,
   tpOf df target X, fpOf df target X⟩
noncomputable def coverEntries (df : Frame) (target : Str × Str) : List (List Selector) → List (List Selector) → List ListEntry
  | _, [] => []
  | earlier, X :: Xs => coverEntry df target earlier X :: coverEntries df target (earlier ++ [X]) Xs

/-- the lines of a list of descriptions -/
noncomputable def coverLines (df : Frame) (target : Str × Str) (Xs : List (List Selector)) : List Str :=
  listLines (coverEntries df target [] Xs)
    ((List.range df.nrows).filter (fun i => decide (MatchesAt df (targetSel target) i ∧ ∀ X ∈ Xs, ¬ Covers df X i))).length
    ((List.range df.nrows).filter (fun i => decide (¬ MatchesAt df (targetSel target) i ∧ ∀ X ∈ Xs, ¬ Covers df X i))).length

end
end Verif.Spec
