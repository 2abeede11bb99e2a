import Verif.Model.IDSD
/-! Model of `src/subgroups/algorithms/subgroup_sets/qfinder.py` and `src/subgroups/data_structures/bitset_qfinder.py`. -/
namespace Verif

/-- the parameters of a `QFinder` object, `qfinder.py:54-110`. `glmOr app target` and `glmP app target` are the odds ratio and the p-value of the
regression of the target column on the column of a pattern (`statsmodels`, not modelled: any functions); `ties` is the order in which pandas lists equally frequent values. -/
structure QFConfig where
  num : Int
  cats : Int
  maxC : Int
  covT : Rat
  orT : Rat
  pT : Rat
  absT : Rat
  ratioT : Rat
  delta : Rat
  glmOr : Bits → Bits → XF
  glmP : Bits → Bits → XF
  ties : TieOrder

/-- `QFinder.__init__`, the checks of the values, `qfinder.py:74-85`. Simplification: the types are the documented ones, no file. -/
def QFConfig.new (num cats maxC : Int) (covT orT pT absT ratioT delta : Rat) (glmOr glmP : Bits → Bits → XF) (ties : TieOrder) : Except PyErr QFConfig :=
  if cats < -1 then .error .valueError
  else if covT < 0 ∨ covT > 1 then .error .valueError
  else if orT < 0 then .error .valueError
  else if pT < 0 ∨ pT > 1 then .error .valueError
  else if absT < 0 then .error .valueError
  else if ratioT < 0 then .error .valueError
  else .ok ⟨num, cats, maxC, covT, orT, pT, absT, ratioT, delta, glmOr, glmP, ties⟩

/-- the row of a pattern in the table of credibility values, `bitset_qfinder.py:87` -/
structure QFCred where
  cov : XF
  odds : XF
  pval : XF
  absC : XF
  ratioC : XF
  adjP : XF
  deriving DecidableEq

/-- a pattern with its row of the table -/
structure QFEntry where
  pat : Pattern
  cred : QFCred
  deriving DecidableEq

/-- the state of a `QFinder` object after `fit`: `_candidate_patterns`, `_credibility_values` and `_top_patterns` -/
structure QFState where
  cands : List Pattern
  table : Dict QFCred
  top : List QFEntry

/-- a new object, `qfinder.py:98-99` (`_credibility_values` does not exist yet) -/
def QFState.init : QFState := ⟨[], [], []⟩

namespace QFinder
open IDSD (valueCounts nsmallest otherLoop redundant)

/-! ### candidates -/

/-- `value_counts.nlargest(k).index`, `qfinder.py:170` -/
def nlargest (k : Nat) (vc : List (Val × Nat)) : List Val :=
  ((stableSort (fun a b : Val × Nat => decide (b.2 ≤ a.2)) vc).take k).map (·.1)

/-- the selectors of the simple patterns of one column, `qfinder.py:156-177`. The rows of the less frequent values are overwritten in a copy of the
data frame that is not used afterwards (`:176`), so this has no effect. -/
def simpleOf (ties : TieOrder) (cats : Int) (c : Str × List Val) : List Selector :=
  let vals := pyUnique c.2
  if (vals.length : Int) ≤ cats ∨ cats = -1 then vals.map (fun v => ⟨c.1, .equal, v⟩)
  else
    let other := otherLoop vals (vals.length + 1) c!"other"
    (nlargest (cats - 1).toNat (valueCounts ties c.2)).map (fun v => (⟨c.1, .equal, v⟩ : Selector)) ++ [⟨c.1, .equal, .str other⟩]

/-- the selectors of the simple patterns, `qfinder.py:151-177` -/
def simples (ties : TieOrder) (cats : Int) (df : Frame) (tname : Str) : List Selector := (otherCols df tname).flatMap (simpleOf ties cats)

/-- `itertools.combinations(l, n)` -/
def combinations {α : Type} : Nat → List α → List (List α)
  | 0, _ => [[]]
  | _ + 1, [] => []
  | n + 1, a :: l => (combinations n l).map (a :: ·) ++ combinations (n + 1) l

/-- the patterns of length `n` made of simple ones with different columns, `qfinder.py:184-192` -/
def complexOf (simple : List Selector) (n : Nat) : List Pattern :=
  ((combinations n simple).filter (fun X => decide ((X.map (·.attr)).Nodup))).map (fun X => X.foldl (fun p s => p.add s) (Pattern.new []))

/-- `_generate_candidate_patterns`, `qfinder.py:129-194` -/
def candidates (cfg : QFConfig) (df : Frame) (tname : Str) : List Pattern :=
  let simple := simples cfg.ties cfg.cats df tname
  let maxC := if cfg.maxC = -1 then ((otherCols df tname).length : Int) else cfg.maxC
  simple.map (fun s => Pattern.new [s]) ++ (List.range' 2 (maxC - 1).toNat).flatMap (complexOf simple)

/-! ### the bitset -/

/-- `df_without_target[selector.attribute_name] == selector.value`, `bitset_qfinder.py:41-43` -/
def selMatch (df : Frame) (tname : Str) (s : Selector) : Except PyErr Bits :=
  match (otherCols df tname).lookup s.attr with
  | some col => .ok (col.map (fun v => v.eq s.val))
  | none => .error .keyError

/-- the conjunction with the rest of the selectors, `bitset_qfinder.py:42-43` -/
def entryLoop (df : Frame) (tname : Str) : List Selector → Bits → Except PyErr Bits
  | [], acc => .ok acc
  | s :: rest, acc => match selMatch df tname s with
    | .error e => .error e
    | .ok b => entryLoop df tname rest (acc.alignAnd b)

/-- the column of a pattern, `bitset_qfinder.py:38-43`; the empty pattern would have `None` there, which has no `sum` -/
def entry (df : Frame) (tname : Str) (p : Pattern) : Except PyErr Bits :=
  match p.sels with
  | [] => .error .attributeError
  | s :: rest => match selMatch df tname s with
    | .error e => .error e
    | .ok b => entryLoop df tname rest b

/-- `pattern_matches[key] = value` -/
def setCol (d : Dict Bits) (k : Str) (v : Bits) : Dict Bits :=
  if (d.map (·.1)).contains k then d.map (fun e => if e.1 = k then (e.1, v) else e) else d ++ [(k, v)]

/-- the loop of `generate_bitset`, `bitset_qfinder.py:37-46` -/
def bitsetLoop (df : Frame) (tname : Str) : List Pattern → Dict Bits → Except PyErr (Dict Bits)
  | [], d => .ok d
  | p :: rest, d => match entry df tname p with
    | .error e => .error e
    | .ok b => bitsetLoop df tname rest (if b.ones ≠ 0 then setCol d p.str b else d)

/-- `compute_credibility_measures` for one column of the bitset, `bitset_qfinder.py:73-86` (`n` is the number of rows of the data). The coverage is divided by
the number of rows, which is not zero when there is a non-empty column. -/
def credOfCol (cfg : QFConfig) (bits : Dict Bits) (target : Bits) (n : Nat) (e : Str × Bits) : Except PyErr (Str × QFCred) :=
  match Pattern.generateFromStr e.1 with
  | .error err => .error err
  | .ok p =>
    match SelectorContribution.compute (SelectorContribution.tableOr (bits.map (fun x => (x.1, cfg.glmOr x.2 target)))) none p with
    | .error err => .error err
    | .ok (a, r) =>
      .ok (e.1, ⟨.fin ((e.2.ones : Rat) / (n : Rat)), cfg.glmOr e.2 target, cfg.glmP e.2 target, a, r, (cfg.glmP e.2 target).mulPos bits.length⟩)

/-- `compute_credibility_measures`, `bitset_qfinder.py:54-87` -/
def credTable (cfg : QFConfig) (bits : Dict Bits) (target : Bits) (n : Nat) : Except PyErr (Dict QFCred) := bits.mapM (credOfCol cfg bits target n)

/-! ### ranking -/

/-- `_handle_individual_result`, `qfinder.py:196-211`, from index `i` on -/
def rankLoop (rank i : Nat) : List Bool → Nat
  | [] => rank
  | b :: l => if !b ∧ i ≠ 3 then rank else rankLoop (if b then i + 1 else rank) (i + 1) l

/-- `_handle_individual_result`, `qfinder.py:196-211` -/
def rank (l : List Bool) : Nat := rankLoop 0 0 l

/-- the criteria of a pattern, `qfinder.py:234-236` -/
def criteria (cfg : QFConfig) (c : QFCred) : List Bool :=
  [c.cov.ge (.fin cfg.covT), c.odds.ge (.fin cfg.orT), c.pval.le (.fin cfg.pT), c.absC.ge (.fin cfg.absT), c.ratioC.le (.fin cfg.ratioT),
    c.adjP.le (.fin cfg.pT)]

/-- `self._credibility_values[...][str(pattern)]`. Simplification: the row of a pattern is looked up once, before the ranking, since the table does
not change. -/
def withCred (table : Dict QFCred) (p : Pattern) : Except PyErr QFEntry :=
  match table.lookup p.str with
  | some c => .ok ⟨p, c⟩
  | none => .error .keyError

/-- `_rank_patterns`, `qfinder.py:223-244` -/
def rankPatterns (cfg : QFConfig) (l : List QFEntry) : List QFEntry :=
  let byP := stableSort (fun a b : QFEntry => !(b.cred.pval.lt a.cred.pval)) l
  stableSort (fun a b : QFEntry => decide (rank (criteria cfg b.cred) ≤ rank (criteria cfg a.cred))) byP

/-! ### selection -/

/-- `max(...)` of the p-values of a non-empty list, `qfinder.py:263` -/
def maxP (t : QFEntry) (ts : List QFEntry) : XF := ts.foldl (fun m x => m.pyMax x.cred.pval) t.cred.pval

/-- the test for leaving a length, `qfinder.py:263-264`; `max` of an empty sequence is a `ValueError` -/
def leave (num : Int) (top : List QFEntry) (e : QFEntry) : Except PyErr Bool :=
  if (top.length : Int) = num then
    match top with
    | [] => .error .valueError
    | t :: ts => .ok ((maxP t ts).lt e.cred.pval)
  else .ok false

/-- `e` is redundant with an element of the list and this is not justified, `qfinder.py:266-272` -/
def rejected (cfg : QFConfig) (top : List QFEntry) (e : QFEntry) : Bool :=
  top.any (fun t => redundant e.pat t.pat &&
    (decide (e.pat.len = t.pat.len) || (decide (e.pat.len > t.pat.len) && e.cred.odds.le (t.cred.odds.addFin cfg.delta))))

/-- `t` is replaced by `e`, `qfinder.py:277-279` -/
def replaces (cfg : QFConfig) (e t : QFEntry) : Bool :=
  redundant e.pat t.pat && decide (e.pat.len > t.pat.len) && (t.cred.odds.addFin cfg.delta).lt e.cred.odds && e.cred.pval.lt t.cred.pval

/-- the loop that removes from the list over which it iterates, `qfinder.py:276-280`: `i` is the index of the iteration, `n` bounds the number of iterations that are left.
Simplification: `list.remove` removes the first element with the same fields. -/
def removeFrom (c : QFEntry → Bool) : Nat → Nat → List QFEntry → List QFEntry
  | 0, _, l => l
  | n + 1, i, l => match l[i]? with
    | some t => if c t then removeFrom c n (i + 1) (l.erase t) else removeFrom c n (i + 1) l
    | none => l

/-- the loop that removes from the list over which it iterates, `qfinder.py:276-280` -/
def removeLoop (c : QFEntry → Bool) (l : List QFEntry) : List QFEntry := removeFrom c l.length 0 l

/-- `max(top_k_patterns, key = p-value)`: the first one with the greatest p-value, `qfinder.py:284` -/
def firstMax (t : QFEntry) (ts : List QFEntry) : QFEntry := ts.foldl (fun m x => if m.cred.pval.lt x.cred.pval then x else m) t

/-- the list with its pattern of greatest p-value removed, `qfinder.py:284-285` -/
def dropMax (l : List QFEntry) : List QFEntry :=
  match l with
  | [] => []
  | t :: ts => (t :: ts).erase (firstMax t ts)

/-- one pattern of `_select_top_k`, `qfinder.py:266-285` -/
def consider (cfg : QFConfig) (top : List QFEntry) (e : QFEntry) : List QFEntry :=
  if rejected cfg top e then top
  else
    let l := removeLoop (replaces cfg e) top ++ [e]
    if (l.length : Int) > cfg.num then dropMax l else l

/-- the patterns of one length, `qfinder.py:261-285` -/
def lengthLoop (cfg : QFConfig) : List QFEntry → List QFEntry → Except PyErr (List QFEntry)
  | [], top => .ok top
  | e :: rest, top => match leave cfg.num top e with
    | .error err => .error err
    | .ok true => .ok top
    | .ok false => lengthLoop cfg rest (consider cfg top e)

/-- the lengths one after the other, `qfinder.py:260-285` -/
def lengthsLoop (cfg : QFConfig) (ranked : List QFEntry) : List Nat → List QFEntry → Except PyErr (List QFEntry)
  | [], top => .ok top
  | n :: rest, top => match lengthLoop cfg (ranked.filter (fun e => decide (e.pat.len = n))) top with
    | .error err => .error err
    | .ok top => lengthsLoop cfg ranked rest top

/-- `_select_top_k`, `qfinder.py:246-286` -/
def selectTopK (cfg : QFConfig) (ranked : List QFEntry) : Except PyErr (List QFEntry) :=
  lengthsLoop cfg ranked (stableSort (fun a b : Nat => decide (a ≤ b)) (ranked.map (·.pat.len)).dedup) []

/-! ### the object -/

/-- `QFinder.fit`, `qfinder.py:288-313`. Simplification: without file. On an error the attributes may be changed partly; this is not modelled. -/
def fit (cfg : QFConfig) (_ : QFState) (df : Frame) (target : Str × Str) : Except PyErr QFState :=
  if !df.nominal then .error .datasetAttributeType
  else match targetMask df target with
    | .error _ => .error .keyError
    | .ok mask =>
      match bitsetLoop df target.1 (candidates cfg df target.1) [] with
      | .error e => .error e
      | .ok bits => match (bits.map (·.1)).mapM Pattern.generateFromStr with
        | .error e => .error e
        | .ok cands => match credTable cfg bits mask df.nrows with
          | .error e => .error e
          | .ok table => match cands.mapM (withCred table) with
            | .error e => .error e
            | .ok es => match selectTopK cfg (rankPatterns cfg es) with
              | .error e => .error e
              | .ok top => .ok ⟨cands, table, top⟩

/-- `QFinder.test_subgroups`, `qfinder.py:315-342`, without file: the table of the credibility values -/
def testSubgroups (cfg : QFConfig) (st : QFState) (df : Frame) (target : Str × Str) : Except PyErr (Dict QFCred) :=
  match targetMask df target with
  | .error _ => .error .keyError
  | .ok mask => match bitsetLoop df target.1 (st.top.map (·.pat)) [] with
    | .error e => .error e
    | .ok bits => credTable cfg bits mask df.nrows

/-- the lines of `_to_file`, `qfinder.py:344-357`: the text of each top pattern with its row of the table. Simplification: the target and the layout of
the line are left out. -/
def fileLines (table : Dict QFCred) : List Pattern → Except PyErr (List (Str × QFCred))
  | [] => .ok []
  | p :: rest => match table.lookup p.str with
    | none => .error .keyError
    | some c => match fileLines table rest with
      | .error e => .error e
      | .ok l => .ok ((p.str, c) :: l)

/-- the lines of the file of `fit`, `qfinder.py:312-313` -/
def fitFile (st : QFState) : Except PyErr (List (Str × QFCred)) := fileLines st.table (st.top.map (·.pat))

/-- the lines of the file of `test_subgroups` with `write_to_file`, `qfinder.py:337-342` -/
def testFile (cfg : QFConfig) (st : QFState) (df : Frame) (target : Str × Str) : Except PyErr (List (Str × QFCred)) :=
  match testSubgroups cfg st df target with
  | .error e => .error e
  | .ok table => fileLines table (st.top.map (·.pat))

/-- `unselected_subgroups`, `qfinder.py:115-116` -/
def getUnselected (st : QFState) : Int := (st.cands.length : Int) - st.top.length

end QFinder
end Verif
