import Verif.Model.Files
import Verif.Spec.Regex
/-! The two file formats, as texts. -/
namespace Verif.Spec

/-- a text without line ends: neither a line feed nor a carriage return -/
def OneLine (s : Str) : Prop := '\n' ∉ s ∧ '\r' ∉ s

/-- a file with the lines `ls`, each ended in one of the three ways (`\n`, `\r\n`, `\r`), where the last line may have no end if it is not empty -/
inductive WrittenLines : List Str → Str → Prop
  | nil : WrittenLines [] []
  | last (l : Str) : l ≠ [] → WrittenLines [l] l
  | unix (l : Str) (ls : List Str) (s : Str) : WrittenLines ls s → WrittenLines (l :: ls) (l ++ c!"\n" ++ s)
  | dos (l : Str) (ls : List Str) (s : Str) : WrittenLines ls s → WrittenLines (l :: ls) (l ++ c!"\r\n" ++ s)
  | mac (l : Str) (ls : List Str) (s : Str) : WrittenLines ls s → (∀ t, s ≠ '\n' :: t) → WrittenLines (l :: ls) (l ++ c!"\r" ++ s)

/-- a non-empty text of the characters that the input format allows in names and values -/
def WordText (s : Str) : Prop :=
  s ≠ [] ∧ ∀ c ∈ s, c ∈ c!"&,.<>/=_-ABCDEFGHIJKLMNOPQRSTUVWXYZabcdefghijklmnopqrstuvwxyz0123456789"

/-- a non-empty text of zeros and ones -/
def DigitText (s : Str) : Prop := s ≠ [] ∧ ∀ c ∈ s, c = '0' ∨ c = '1'

/-- a selector as it is written in the file -/
structure SelTxt where
  attr : Str
  val : Str
  quoted : Bool

def SelTxt.Valid (t : SelTxt) : Prop := WordText t.attr ∧ WordText t.val

/-- `attr = val` or `attr = 'val'` -/
def SelTxt.text (t : SelTxt) : Str := t.attr ++ c!" = " ++ (if t.quoted then c!"'" ++ t.val ++ c!"'" else t.val)

/-- what it means: a quoted value is a text, another is a float if it has a point and is a number, an integer if it is one, and a text otherwise -/
def SelTxt.selector (t : SelTxt) : Selector :=
  ⟨t.attr, .equal, if t.quoted then .str t.val
    else if '.' ∈ t.val then (match parseFloat t.val with | some f => .flt f | none => .str t.val)
    else (match parseInt t.val with | some z => .int z | none => .str t.val)⟩

/-- a line of the input file of the subgroup-list algorithms -/
structure LineTxt where
  sels : List SelTxt
  target : SelTxt
  pos : Str
  neg : Str

structure LineTxt.Valid (t : LineTxt) : Prop where
  nonempty : t.sels ≠ []
  sels : ∀ s ∈ t.sels, s.Valid
  target : t.target.Valid
  pos : DigitText t.pos
  neg : DigitText t.neg

/-- `Description: [S, S, ...], Target: S` -/
def LineTxt.subText (t : LineTxt) : Str :=
  c!"Description: [" ++ c!", ".intercalate (t.sels.map SelTxt.text) ++ c!"], Target: " ++ t.target.text

/-- the subgroup, ` ; `, the positives, ` ; `, the negatives -/
def LineTxt.text (t : LineTxt) : Str := t.subText ++ c!" ; " ++ t.pos ++ c!" ; " ++ t.neg

/-- the candidate that the line describes -/
def LineTxt.cand (t : LineTxt) : Cand :=
  ⟨⟨Pattern.new (t.sels.map SelTxt.selector), t.target.selector⟩, t.pos.map (· = '1'), t.neg.map (· = '1')⟩

/-- the line has the right format, but an attribute name in its description ends with a comma -/
def Trap (line : Str) : Prop := ∃ t : LineTxt, t.Valid ∧ line = t.text ∧ ∃ s ∈ t.sels, ∃ a, s.attr = a ++ c!","

/-- what may happen to a line -/
inductive Outcome
  | loaded (c : Cand)
  | badFormat
  | badLength (pos neg : Bool)

/-- what has to happen to a line when the data set has `n` rows -/
def IsOutcome (n : Nat) (line : Str) : Outcome → Prop
  | .loaded c => ∃ t : LineTxt, t.Valid ∧ line = t.text ∧ t.pos.length = n ∧ t.neg.length = n ∧ c = t.cand
  | .badFormat => ¬ ∃ t : LineTxt, t.Valid ∧ line = t.text
  | .badLength p q => ∃ t : LineTxt, t.Valid ∧ line = t.text ∧ (t.pos.length ≠ n ↔ p = true) ∧ (t.neg.length ≠ n ↔ q = true) ∧ (p || q) = true

def Outcome.cand? : Outcome → Option Cand
  | .loaded c => some c
  | _ => none

/-- the report about line number `k` -/
def Outcome.report (k : Nat) : Outcome → Str
  | .loaded _ => []
  | .badFormat => c!"ERROR: subgroup in line " ++ natStr k ++ c!" from input file was not loaded.\n\t- Format not valid.\n"
  | .badLength p q =>
    (if p then c!"ERROR: subgroup in line " ++ natStr k ++
      c!" from input file was not loaded.\n\t- The length of the positive bitarray is not equal to 'number_of_dataset_instances'.\n" else []) ++
    (if q then c!"ERROR: subgroup in line " ++ natStr k ++
      c!" from input file was not loaded.\n\t- The length of the negative bitarray is not equal to 'number_of_dataset_instances'.\n" else [])

/-- the separators of a result line with bitsets -/
def tpSep : Str := c!" ; Sequence of instances tp = bitarray('"
def fpSep : Str := c!"') ; Sequence of instances fp = bitarray('"
def endSep : Str := c!"') ; Quality Measure"

/-- the line is a result line with bitsets: subgroup, the two bit texts and something after `Quality Measure` -/
def BitsetLine (line sub pos neg : Str) : Prop :=
  DigitText pos ∧ DigitText neg ∧ sub ≠ [] ∧ ∃ rest, rest ≠ [] ∧ line = sub ++ tpSep ++ pos ++ fpSep ++ neg ++ endSep ++ rest

/-- the same line could be read with a shorter subgroup text only: `sub` ends at the last place where it can -/
def LastSplit (line sub : Str) : Prop := ∀ sub' pos' neg', BitsetLine line sub' pos' neg' → sub'.length ≤ sub.length

/-- the line of the transformed file for line number `k` of the original: the three parts, or an error -/
def IsTransformed (k : Nat) (line out : Str) : Prop :=
  (∃ sub pos neg, BitsetLine line sub pos neg ∧ LastSplit line sub ∧ out = sub ++ c!" ; " ++ pos ++ c!" ; " ++ neg) ∨
  ((¬ ∃ sub pos neg, BitsetLine line sub pos neg) ∧ out = c!"ERROR: subgroup in line " ++ natStr k ++ c!" was not correctly read.")

/-- names and values of the data that survive the way through the files -/
structure WordFrame (df : Frame) (target : Str × Str) : Prop where
  names : ∀ c ∈ df.cols, WordText c.1
  comma : ∀ c ∈ df.cols, c.1 ≠ target.1 → ∀ a, c.1 ≠ a ++ c!","
  values : ∀ c ∈ df.cols, ∀ v, Val.str v ∈ c.2 → WordText v
  target : WordText target.2

end Verif.Spec
