import Verif.Model.Regex
import Verif.Model.ListMiner
import Verif.Model.VLSD
/-! Model of the text files: the result file of VLSD, its transformation (`utils/file_format_transformations.py`) and the loading of candidates
(`gmsl.py:34-38`, `:152-192`, used by GMSL, PSLD and DSLM). A file is the text of its contents. -/
namespace Verif
open Rgx

/-- the translation of line ends by `open(..., "r")` (`newline=None`): `'\r\n'` and `'\r'` are read as `'\n'`; `file_format_transformations.py:22`, `gmsl.py:165` -/
def universal : Str → Str
  | [] => []
  | '\r' :: '\n' :: s => '\n' :: universal s
  | '\r' :: s => '\n' :: universal s
  | c :: s => c :: universal s

/-- iteration over a text file with `line.rstrip("\n")`; `acc` is the current line, reversed; `file_format_transformations.py:24-26`, `gmsl.py:166-167` -/
def fileLinesAux : Str → Str → List Str
  | acc, [] => if acc = [] then [] else [acc.reverse]
  | acc, c :: s => if c = '\n' then acc.reverse :: fileLinesAux [] s else fileLinesAux (c :: acc) s

/-- the lines of a file -/
def fileLines (s : Str) : List Str := fileLinesAux [] (universal s)

/-- the text written for some lines -/
def fileText (lines : List Str) : Str := lines.flatMap (· ++ c!"\n")

/-- the digits of a bitarray -/
def bitText (b : Bits) : Str := b.map (fun x => if x then '1' else '0')

/-- `bitarray(text, endian="big")` for a text of zeros and ones -/
def readBits (s : Str) : Bits := s.map (· == '1')

/-- `str(bitarray)` -/
def bitarrayStr (b : Bits) : Str := if b = [] then c!"bitarray()" else c!"bitarray('" ++ bitText b ++ c!"')"

/-- the line VLSD writes with bitsets, `vlsd.py:206-216`, without the line end. The names of the measures and the text of a float are parameters. -/
def VLine.text (measureName estimateName : Str) (floatStr : Rat → Str) (l : VLine Bits) : Str :=
  l.subgroup.str ++ c!" ; " ++
  (c!"Sequence of instances tp = " ++ bitarrayStr l.tpSeq ++ c!" ; ") ++
  (c!"Sequence of instances fp = " ++ bitarrayStr l.fpSeq ++ c!" ; ") ++
  (c!"Quality Measure " ++ measureName ++ c!" = " ++ floatStr l.quality ++ c!" ; ") ++
  (c!"Optimistic Estimate " ++ estimateName ++ c!" = " ++ floatStr l.estimate ++ c!" ; ") ++
  (c!"tp = " ++ natStr l.tp ++ c!" ; ") ++
  (c!"fp = " ++ natStr l.fp ++ c!" ; ") ++
  (c!"TP = " ++ natStr l.TP ++ c!" ; ") ++
  (c!"FP = " ++ natStr l.FP)

/-! ### `to_input_format_for_subgroup_list_algorithms` -/

/-- `_regex_pattern`, `file_format_transformations.py:11`, as a concatenation; the groups are the first, third and fifth part -/
def transformRegex : List Rgx :=
  [plus any, lit c!" ; Sequence of instances tp = bitarray('", bits, lit c!"') ; Sequence of instances fp = bitarray('", bits,
    seq (lit c!"') ; Quality Measure") (plus any)]

/-- `match_object.group(...)` for the groups "subgroup", "positive_bitset" and "negative_bitset" -/
def transformGroups (line : Str) : Option (Str × Str × Str) :=
  match fullmatch transformRegex line with
  | some [sub, _, pos, _, neg, _] => some (sub, pos, neg)
  | _ => none

/-- the loop over the lines, `file_format_transformations.py:25-34`: output written, line number and errors so far -/
def transformLoop : List Str → Str → Nat → Nat → Str × Nat × Nat
  | [], out, lineNumber, errors => (out, lineNumber, errors)
  | line :: ls, out, lineNumber, errors =>
    match transformGroups line with
    | some (sub, pos, neg) => transformLoop ls (out ++ (sub ++ c!" ; " ++ pos ++ c!" ; " ++ neg ++ c!"\n")) (lineNumber + 1) errors
    | none => transformLoop ls (out ++ (c!"ERROR: subgroup in line " ++ natStr lineNumber ++ c!" was not correctly read.\n")) (lineNumber + 1) (errors + 1)

/-- `to_input_format_for_subgroup_list_algorithms`, `file_format_transformations.py:14-37`: contents of the transformed file and the tuple returned -/
def transformFile (input : Str) : Str × Int × Int :=
  match transformLoop (fileLines input) [] 1 0 with
  | (out, lineNumber, errors) => (out, (lineNumber : Int) - 1 - errors, errors)

/-! ### Loading the candidates -/

/-- `[&,\.<>/=A-Za-z0-9_-]` -/
def wordChar (c : Char) : Bool :=
  c ∈ c!"&,.<>/=_-" || ('A' ≤ c && c ≤ 'Z') || ('a' ≤ c && c ≤ 'z') || ('0' ≤ c && c ≤ '9')

/-- `[&,\.<>/=A-Za-z0-9_-]+` -/
def wordRegex : Rgx := plus (cls wordChar)

/-- `_selector_regex_pattern`, `gmsl.py:34` -/
def selectorRegex : Rgx := seq wordRegex (seq (lit c!" = ") (alt wordRegex (seq (lit c!"'") (seq wordRegex (lit c!"'")))))

/-- `_pattern_regex_pattern`, `gmsl.py:35` -/
def patternRegex : Rgx := seq (lit c!"[") (seq selectorRegex (seq (star (seq (lit c!", ") selectorRegex)) (lit c!"]")))

/-- `INPUT_LINE_REGEX_PATTERN`, `gmsl.py:36-37`; the groups are the first, third and fifth part -/
def inputLineRegex : List Rgx :=
  [seq (lit c!"Description: ") (seq patternRegex (seq (lit c!", Target: ") selectorRegex)), lit c!" ; ", bits, lit c!" ; ", bits]

/-- the groups of a line -/
def inputLineGroups (line : Str) : Option (Str × Str × Str) :=
  match fullmatch inputLineRegex line with
  | some [sub, _, pos, _, neg] => some (sub, pos, neg)
  | _ => none

/-- the first line of the two messages -/
def notLoaded (lineNumber : Nat) : Str := c!"ERROR: subgroup in line " ++ natStr lineNumber ++ c!" from input file was not loaded.\n"

/-- what the loop does with one line, `gmsl.py:167-188`: the candidate appended, if any, and the text written -/
def loadLine (n lineNumber : Nat) (line : Str) : Except PyErr (Option Cand × Str) :=
  match inputLineGroups line with
  | none => .ok (none, notLoaded lineNumber ++ c!"\t- Format not valid.\n")
  | some (sub, pos, neg) =>
    match Subgroup.generateFromStr sub with
    | .error e => .error e
    | .ok s =>
      let p := readBits pos
      let q := readBits neg
      let w1 := if p.length ≠ n then notLoaded lineNumber ++ c!"\t- The length of the positive bitarray is not equal to 'number_of_dataset_instances'.\n" else []
      let w2 := if q.length ≠ n then notLoaded lineNumber ++ c!"\t- The length of the negative bitarray is not equal to 'number_of_dataset_instances'.\n" else []
      if p.length ≠ n ∨ q.length ≠ n then .ok (none, w1 ++ w2) else .ok (some ⟨s, p, q⟩, [])

/-- the state of the loop: candidates, text written, `line_number` and `read_subgroups` -/
structure LoadState where
  cands : List Cand
  log : Str
  lineNumber : Nat
  read : Nat

/-- the loop over the lines, `gmsl.py:166-189` -/
def loadLoop (n : Nat) : List Str → LoadState → Except PyErr LoadState
  | [], st => .ok st
  | line :: ls, st =>
    match loadLine n st.lineNumber line with
    | .error e => .error e
    | .ok (some c, w) => loadLoop n ls ⟨st.cands ++ [c], st.log ++ w, st.lineNumber + 1, st.read + 1⟩
    | .ok (none, w) => loadLoop n ls ⟨st.cands, st.log ++ w, st.lineNumber + 1, st.read⟩

/-- `_load_candidates`, `gmsl.py:152-192`: the candidates (the three lists of the code, side by side) and the text written to the output file -/
def loadCandidates (n : Nat) (input : Str) : Except PyErr (List Cand × Str) :=
  match loadLoop n (fileLines input) ⟨[], c!"Reading input file.\n", 1, 0⟩ with
  | .error e => .error e
  | .ok st => .ok (st.cands, st.log ++ (c!"Read subgroups: " ++ natStr st.read ++ c!".\n") ++ c!"Input file read.\n\n\n")

end Verif
