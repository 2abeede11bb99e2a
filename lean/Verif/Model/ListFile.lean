import Verif.Model.Files
import Verif.Model.ListMiner
/-! Model of what the subgroup-list algorithms write: `SubgroupList.__str__` and the output file of `GMSL.fit`, `PSLD.fit` and `DSLM.fit`; and of their
constructors. -/
namespace Verif

/-- the part of the printed form for the subgroup at one position, `subgroup_list.py:170-182` (an index outside a list would be an `IndexError`; the
five lists always have the same length, C21) -/
def SubgroupList.entryText (l : SubgroupList) (i : Nat) : Str :=
  let p := (l.pos.getD i []).ones
  let n := (l.neg.getD i []).ones
  let op := (l.origPos.getD i []).ones
  let on := (l.origNeg.getD i []).ones
  c!"s" ++ natStr (i + 1) ++ c!": " ++ (match l.subs[i]? with | some s => s.str | none => []) ++ c!"\n" ++
    c!"\tConsidering its position in the list:\n" ++
    c!"\t- positive instances covered: " ++ natStr p ++ c!"\n" ++
    c!"\t- negative instances covered: " ++ natStr n ++ c!"\n" ++
    c!"\t- total instances covered: " ++ natStr (p + n) ++ c!"\n" ++
    c!"\tConsidering it individually:\n" ++
    c!"\t- positive instances covered: " ++ natStr op ++ c!"\n" ++
    c!"\t- negative instances covered: " ++ natStr on ++ c!"\n" ++
    c!"\t- total instances covered: " ++ natStr (op + on) ++ c!"\n"

/-- `SubgroupList.__str__`, `subgroup_list.py:163-189` -/
def SubgroupList.str (l : SubgroupList) : Str :=
  let k := l.subs.length
  let header := if k = 1 then c!"## Subgroup list (1 subgroup) ##\n" else c!"## Subgroup list (" ++ natStr k ++ c!" subgroups) ##\n"
  let p := l.defPos.ones
  let n := l.defNeg.ones
  header ++ (List.range k).flatMap l.entryText ++ c!"default rule:\n" ++
    c!"\tpositive instances covered: " ++ natStr p ++ c!"\n" ++
    c!"\tnegative instances covered: " ++ natStr n ++ c!"\n" ++
    c!"\ttotal instances covered: " ++ natStr (p + n) ++ c!"\n"

/-- the lines about the data, `gmsl.py:222-226` (the same text in `psld.py:117-121` and `dslm.py:124-128`); `mask` marks the rows with the target -/
def datasetInfo (df : Frame) (mask : Bits) : Str :=
  c!"Dataset information:\n" ++
  c!"\t- Number of instances: " ++ natStr df.nrows ++ c!".\n" ++
  c!"\t- Number of positive instances: " ++ natStr mask.ones ++ c!".\n" ++
  c!"\t- Number of negative instances: " ++ natStr (mask.length - mask.ones) ++ c!".\n" ++
  c!"\t- Total number of attributes (including the target): " ++ natStr df.cols.length ++ c!".\n\n\n"

/-- `_handle_individual_result`, `gmsl.py:145-150`: what is written for a list -/
def listText (l : SubgroupList) : Str := l.str ++ c!"\n"

variable {G C : Type}

/-- `fit` of the three algorithms from the input file to the output file, `gmsl.py:194-272`, `psld.py:88-170`, `dslm.py:97-196`: the contents of the output file
when the method returns. Simplification: the lists are written when all of them are complete, not one by one (`listOps` in
`Model/OutFile.lean` has the single operations, and what is left when an exception is raised). -/
def listRun (M : Miner G C) (maxSl : Nat) (df : Frame) (target : Str × Str) (input : Str) : Except PyErr Str :=
  if df.nrows = 0 then .error .valueError
  else if !df.nominal then .error .datasetAttributeType
  else match targetMask df target with
    | .error e => .error e
    | .ok mask => match loadCandidates df.nrows input with
      | .error e => .error e
      | .ok (cs, log) => match listFit M maxSl df target (.ok cs) with
        | .error e => .error e
        | .ok res => .ok (datasetInfo df mask ++ log ++ res.flatMap listText)

/-- the checks of `GMSL.__init__`, `gmsl.py:42-59` (`beta` may be a fraction); the paths are texts -/
def gmslNew (maxSl : Int) (beta : Rat) : Except PyErr (Int × Rat) :=
  if maxSl ≤ 0 then .error .valueError
  else if beta < 0 ∨ beta > 1 then .error .valueError
  else .ok (maxSl, beta)

/-- `PSLD.__init__`, `psld.py:31-37` -/
def psldNew (maxSl slMaxSize : Int) (beta : Rat) : Except PyErr (Int × Int × Rat) :=
  if slMaxSize ≤ 0 then .error .valueError
  else match gmslNew maxSl beta with
    | .error e => .error e
    | .ok (a, b) => .ok (a, slMaxSize, b)

/-- `DSLM.__init__`, `dslm.py:31-38`: the overlap limits are not checked -/
def dslmNew (maxSl slMaxSize : Int) (beta maxPos maxNeg : Rat) : Except PyErr (Int × Int × Rat × Rat × Rat) :=
  match psldNew maxSl slMaxSize beta with
  | .error e => .error e
  | .ok (a, b, c) => .ok (a, b, c, maxPos, maxNeg)

end Verif
