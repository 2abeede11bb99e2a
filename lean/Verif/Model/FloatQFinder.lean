import Verif.Model.QFinder
import Verif.Model.FloatIDSD
/-! Model of QFinder with rounding: the coverages, the contributions, the adjusted p-values and the odds ratios plus `delta` are calculated with floats, rounded by `ρ` after every operation
(`Float64.fl`, `Binary64.roundAny`, or any other function). Odds ratios and p-values of the regressions are the parameters `glmOr`, `glmP`, as in `Model/QFinder`. Simplifications: those of
`Model/QFinder`; no number is rounded to infinity. -/
namespace Verif.QFinderRounded
open QFinder (candidates bitsetLoop withCred rankPatterns leave removeLoop dropMax fileLines)
open IDSD (redundant)

/-- `odds_ratio + self._delta`, `qfinder.py:271`, `:278` -/
def addDelta (ρ : Rat → Rat) : XF → Rat → XF
  | .fin a, d => .fin (ρ (a + d))
  | x, d => x.addFin d

/-- `p_value * len(self._df.columns)`, `bitset_qfinder.py:86` -/
def adjusted (ρ : Rat → Rat) : XF → Nat → XF
  | .fin a, n => .fin (ρ (a * n))
  | x, n => x.mulPos n

/-- `compute_credibility_measures` for one column of the bitset, `bitset_qfinder.py:73-86` -/
def credOfCol (ρ : Rat → Rat) (cfg : QFConfig) (bits : Dict Bits) (target : Bits) (n : Nat) (e : Str × Bits) : Except PyErr (Str × QFCred) :=
  match Pattern.generateFromStr e.1 with
  | .error err => .error err
  | .ok p =>
    match IDSDRounded.compute ρ (SelectorContribution.tableOr (bits.map (fun x => (x.1, cfg.glmOr x.2 target)))) p with
    | .error err => .error err
    | .ok (a, r) =>
      .ok (e.1, ⟨.fin (ρ ((e.2.ones : Rat) / (n : Rat))), cfg.glmOr e.2 target, cfg.glmP e.2 target, a, r, adjusted ρ (cfg.glmP e.2 target) bits.length⟩)

/-- `compute_credibility_measures`, `bitset_qfinder.py:54-87` -/
def credTable (ρ : Rat → Rat) (cfg : QFConfig) (bits : Dict Bits) (target : Bits) (n : Nat) : Except PyErr (Dict QFCred) := bits.mapM (credOfCol ρ cfg bits target n)

/-- `e` is redundant with an element of the list and this is not justified, `qfinder.py:266-272` -/
def rejected (ρ : Rat → Rat) (cfg : QFConfig) (top : List QFEntry) (e : QFEntry) : Bool :=
  top.any (fun t => redundant e.pat t.pat &&
    (decide (e.pat.len = t.pat.len) || (decide (e.pat.len > t.pat.len) && e.cred.odds.le (addDelta ρ t.cred.odds cfg.delta))))

/-- `t` is replaced by `e`, `qfinder.py:277-279` -/
def replaces (ρ : Rat → Rat) (cfg : QFConfig) (e t : QFEntry) : Bool :=
  redundant e.pat t.pat && decide (e.pat.len > t.pat.len) && (addDelta ρ t.cred.odds cfg.delta).lt e.cred.odds && e.cred.pval.lt t.cred.pval

/-- one pattern of `_select_top_k`, `qfinder.py:266-285` -/
def consider (ρ : Rat → Rat) (cfg : QFConfig) (top : List QFEntry) (e : QFEntry) : List QFEntry :=
  if rejected ρ cfg top e then top
  else
    let l := removeLoop (replaces ρ cfg e) top ++ [e]
    if (l.length : Int) > cfg.num then dropMax l else l

/-- the patterns of one length, `qfinder.py:261-285` -/
def lengthLoop (ρ : Rat → Rat) (cfg : QFConfig) : List QFEntry → List QFEntry → Except PyErr (List QFEntry)
  | [], top => .ok top
  | e :: rest, top => match leave cfg.num top e with
    | .error err => .error err
    | .ok true => .ok top
    | .ok false => lengthLoop ρ cfg rest (consider ρ cfg top e)

/-- the lengths one after the other, `qfinder.py:260-285` -/
def lengthsLoop (ρ : Rat → Rat) (cfg : QFConfig) (ranked : List QFEntry) : List Nat → List QFEntry → Except PyErr (List QFEntry)
  | [], top => .ok top
  | n :: rest, top => match lengthLoop ρ cfg (ranked.filter (fun e => decide (e.pat.len = n))) top with
    | .error err => .error err
    | .ok top => lengthsLoop ρ cfg ranked rest top

/-- `_select_top_k`, `qfinder.py:246-286` -/
def selectTopK (ρ : Rat → Rat) (cfg : QFConfig) (ranked : List QFEntry) : Except PyErr (List QFEntry) :=
  lengthsLoop ρ cfg ranked (stableSort (fun a b : Nat => decide (a ≤ b)) (ranked.map (·.pat.len)).dedup) []

/-- `QFinder.fit`, `qfinder.py:288-313` -/
def fit (ρ : Rat → Rat) (cfg : QFConfig) (_ : QFState) (df : Frame) (target : Str × Str) : Except PyErr QFState :=
  if !df.nominal then .error .datasetAttributeType
  else match targetMask df target with
    | .error _ => .error .keyError
    | .ok mask =>
      match bitsetLoop df target.1 (candidates cfg df target.1) [] with
      | .error e => .error e
      | .ok bits => match (bits.map (·.1)).mapM Pattern.generateFromStr with
        | .error e => .error e
        | .ok cands => match credTable ρ cfg bits mask df.nrows with
          | .error e => .error e
          | .ok table => match cands.mapM (withCred table) with
            | .error e => .error e
            | .ok es => match selectTopK ρ cfg (rankPatterns cfg es) with
              | .error e => .error e
              | .ok top => .ok ⟨cands, table, top⟩

/-- `QFinder.test_subgroups`, `qfinder.py:315-342`, without file: the table of the credibility values -/
def testSubgroups (ρ : Rat → Rat) (cfg : QFConfig) (st : QFState) (df : Frame) (target : Str × Str) : Except PyErr (Dict QFCred) :=
  match targetMask df target with
  | .error _ => .error .keyError
  | .ok mask => match bitsetLoop df target.1 (st.top.map (·.pat)) [] with
    | .error e => .error e
    | .ok bits => credTable ρ cfg bits mask df.nrows

/-- the lines of the file of `test_subgroups` with `write_to_file`, `qfinder.py:337-342` -/
def testFile (ρ : Rat → Rat) (cfg : QFConfig) (st : QFState) (df : Frame) (target : Str × Str) : Except PyErr (List (Str × QFCred)) :=
  match testSubgroups ρ cfg st df target with
  | .error e => .error e
  | .ok table => fileLines table (st.top.map (·.pat))

end Verif.QFinderRounded
